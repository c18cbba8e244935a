import Verif.Lemmas.Hdlc
/-!
# The HDLC receiver with one working message
-/
namespace Gensio.Hdlc
open Gensio.Crc

/-- One bit for the only working message: new state and the message completed, if any. -/
def step1 (c : Cfg) (w0 : W) (bit : Bool) : W × Option (List UInt8) :=
  let w := { w0 with newW := false, ones := if bit then w0.ones + 1 else 0 }
  match w.st with
  | .search0 => (if bit then w else { w with st := .first0 }, none)
  | .first0 => (if bit then { w with st := .pre1 } else w, none)
  | .pre1 => (if !bit then { w with st := .first0 } else if w.ones = 6 then { w with st := .last0 } else w, none)
  | .last0 => (if bit then { w with st := .search0 } else { w with st := .inMsg, cur := 0, bitPos := 0 }, none)
  | .inMsg =>
    if w0.ones = 5 then (if bit then { w with st := .postLast0 } else w, none)
    else
      let cur := w.cur ||| ((if bit then 1 else 0) <<< UInt8.ofNat w.bitPos)
      if w.bitPos = 7 then
        if w.rd.length ≥ c.maxRead then ({ w with cur := cur, rd := [], unc := 0, st := .search0 }, none)
        else ({ w with rd := w.rd ++ [cur], cur := 0, bitPos := 0 }, none)
      else ({ w with cur := cur, bitPos := w.bitPos + 1 }, none)
  | .postLast0 =>
    if bit then ({ w with rd := [], unc := 0, st := .search0 }, none)
    else ({ w with rd := [], unc := 0, st := .inMsg, cur := 0, bitPos := 0 }, checkMsg c w)

/-- The table with one message in use. -/
def Single (f : Rx) (w : W) : Prop :=
  ∃ rest, f.ws = w :: rest ∧ w.inUse = true ∧ (∀ r ∈ rest, r.inUse = false) ∧ f.curW = 1

/-- Queue part of the state. -/
def addMsg (f : Rx) : Option (List UInt8) → Rx
  | none => f
  | some m => deliver f m

/-- Equal but for the table and the flag mark. -/
def SameQ (f g : Rx) : Prop := f.slots = g.slots ∧ f.dnum = g.dnum ∧ f.dcur = g.dcur

theorem processW_unused (c : Cfg) (f : Rx) (n : Nat) (bit : Bool) (u : UInt32) (r : W) (h : f.ws[n]? = some r)
    (hr : r.inUse = false) : processW c f n bit u = f := by
  simp [processW, h, hr]

theorem deliver_ws (f : Rx) (m : List UInt8) : (deliver f m).ws = f.ws ∧ (deliver f m).curW = f.curW ∧
    (deliver f m).gotFlag = f.gotFlag := by
  unfold deliver; split <;> simp

theorem deliver_sameQ {f g : Rx} (h : SameQ f g) (m : List UInt8) : SameQ (deliver f m) (deliver g m) := by
  obtain ⟨h1, h2, h3⟩ := h
  unfold deliver SameQ
  rw [h1, h2, h3]
  split <;> simp_all

theorem stepW_single (c : Cfg) (f : Rx) (w : W) (bit : Bool) (hs : Single f w) (hg : f.gotFlag = false) :
    Single (stepW c f 0 bit) (step1 c w bit).1 ∧ SameQ (stepW c f 0 bit) (addMsg f (step1 c w bit).2) ∧
      (stepW c f 0 bit).ws.length = f.ws.length := by
  obtain ⟨rest, hws, hu, hrest, hcur⟩ := hs
  obtain ⟨ws, cw, gf, sl, dn, dc⟩ := f
  simp only at hws hcur hg
  subst hws hcur hg
  obtain ⟨iu, nw, un, on, st, cu, bp, rd⟩ := w
  simp only at hu
  subst hu
  simp only [stepW, List.getElem?_cons_zero, step1, switch]
  have hput : ∀ w' : W, w'.inUse = true → Single ⟨w' :: rest, 1, false, sl, dn, dc⟩ w' := fun w' h =>
    ⟨rest, rfl, h, hrest, rfl⟩
  cases st with
  | search0 => cases bit <;> exact ⟨hput _ rfl, ⟨rfl, rfl, rfl⟩, rfl⟩
  | first0 => cases bit <;> exact ⟨hput _ rfl, ⟨rfl, rfl, rfl⟩, rfl⟩
  | pre1 =>
    cases bit
    · exact ⟨hput _ rfl, ⟨rfl, rfl, rfl⟩, rfl⟩
    · by_cases h6 : on + 1 = 6
      · simp only [h6, List.set_cons_zero, Bool.not_true, Bool.false_eq_true, if_false, if_true]
        exact ⟨hput _ rfl, ⟨rfl, rfl, rfl⟩, rfl⟩
      · simp only [h6, List.set_cons_zero, Bool.not_true, Bool.false_eq_true, if_false, if_true]
        exact ⟨hput _ rfl, ⟨rfl, rfl, rfl⟩, rfl⟩
  | last0 => cases bit <;> exact ⟨hput _ rfl, ⟨rfl, rfl, rfl⟩, rfl⟩
  | inMsg =>
    by_cases h5 : on = 5
    · simp only [h5, if_true]
      cases bit <;> exact ⟨hput _ rfl, ⟨rfl, rfl, rfl⟩, rfl⟩
    · simp only [h5, if_false]
      by_cases h7 : bp = 7
      · simp only [h7, if_true, newByte]
        by_cases hl : rd.length ≥ c.maxRead
        · simp only [if_pos hl, dropW, Bool.false_and, Bool.false_eq_true, if_false, if_true, List.set_cons_zero]
          exact ⟨hput _ rfl, ⟨rfl, rfl, rfl⟩, rfl⟩
        · simp only [if_neg hl, List.set_cons_zero]
          exact ⟨hput _ rfl, ⟨rfl, rfl, rfl⟩, rfl⟩
      · simp only [h7, if_false, List.set_cons_zero]
        exact ⟨hput _ rfl, ⟨rfl, rfl, rfl⟩, rfl⟩
  | postLast0 =>
    cases bit with
    | true =>
      simp only [if_true, dropW, Bool.false_and, Bool.false_eq_true, if_false, List.set_cons_zero]
      exact ⟨hput _ rfl, ⟨rfl, rfl, rfl⟩, rfl⟩
    | false =>
      simp only [Bool.false_eq_true, if_false, newMessage]
      cases hm : checkMsg c ⟨true, false, un, 0, .postLast0, cu, bp, rd⟩ with
      | none =>
        simp only [dropW, Bool.not_false, Bool.and_self, if_true, List.set_cons_zero, List.modify_zero_cons, addMsg]
        exact ⟨⟨rest, rfl, rfl, hrest, rfl⟩, ⟨rfl, rfl, rfl⟩, rfl⟩
      | some m =>
        simp only [addMsg, List.set_cons_zero]
        have hd := deliver_ws ⟨⟨true, false, un, 0, .postLast0, cu, bp, rd⟩ :: rest, 1, false, sl, dn, dc⟩ m
        simp only [hd.1, List.map_cons, List.modify_zero_cons]
        refine ⟨⟨_, rfl, rfl, ?_, hd.2.1⟩, ?_, by simp⟩
        · intro r hr
          simp only [List.mem_map] at hr
          obtain ⟨r', hr', rfl⟩ := hr
          exact hrest r' hr'
        · have := deliver_sameQ (f := ⟨⟨true, false, un, 0, .postLast0, cu, bp, rd⟩ :: rest, 1, false, sl, dn, dc⟩)
            (g := ⟨⟨true, nw, un, on, .postLast0, cu, bp, rd⟩ :: rest, 1, false, sl, dn, dc⟩) ⟨rfl, rfl, rfl⟩ m
          exact ⟨this.1, this.2.1, this.2.2⟩

theorem addMsg_sameQ {f g : Rx} (h : SameQ f g) (m : Option (List UInt8)) : SameQ (addMsg f m) (addMsg g m) := by
  cases m with
  | none => exact h
  | some m => exact deliver_sameQ h m

theorem SameQ.trans {f g h : Rx} (a : SameQ f g) (b : SameQ g h) : SameQ f h :=
  ⟨a.1.trans b.1, a.2.1.trans b.2.1, a.2.2.trans b.2.2⟩

/-- A certain bit with one working message. -/
theorem processBit_single (c : Cfg) (f : Rx) (w : W) (bit : Bool) (hs : Single f w) :
    Single (processBit c f bit 0) (step1 c w bit).1 ∧ SameQ (processBit c f bit 0) (addMsg f (step1 c w bit).2) := by
  have hs' : Single { f with gotFlag := false } w := hs
  obtain ⟨h1, h2, h3⟩ := stepW_single c { f with gotFlag := false } w bit hs' rfl
  obtain ⟨rest, hws, hu, hrest, hcur⟩ := hs
  have hpos : f.ws.length = rest.length + 1 := by rw [hws]; rfl
  have first : processW c { f with gotFlag := false } 0 bit 0 = stepW c { f with gotFlag := false } 0 bit := by
    have h0 : ({ f with gotFlag := false } : Rx).ws[0]? = some w := by simp [hws]
    have hn : ¬ ((0 : UInt32) > c.maxUnc ∧ w.newW = false) := by
      rintro ⟨h, _⟩
      have := UInt32.lt_iff_toNat_lt.mp h
      simp at this
    simp only [processW, h0, hu, Bool.not_true, Bool.false_eq_true, if_false, hn]
  have hall : ∀ (l : List Nat) (g : Rx) (w' : W), Single g w' → (∀ i ∈ l, 0 < i ∧ i < g.ws.length) →
      l.foldl (fun f i => processW c f i bit 0) g = g := by
    intro l
    induction l with
    | nil => intro g w' _ _; rfl
    | cons i l ih =>
      intro g w' hg hl
      obtain ⟨rest', e, _, hr, _⟩ := hg
      obtain ⟨hi, hi2⟩ := hl i (by simp)
      have : processW c g i bit 0 = g := by
        apply processW_unused c g i bit 0 (g.ws[i]) (by simp [hi2])
        apply hr
        obtain ⟨j, rfl⟩ : ∃ j, i = j + 1 := ⟨i - 1, by omega⟩
        simp only [e, List.getElem_cons_succ]
        exact List.getElem_mem _
      rw [List.foldl_cons, this]
      exact ih g w' ⟨rest', e, ‹_›, hr, ‹_›⟩ (fun j hj => hl j (by simp [hj]))
  have : processBit c f bit 0 = stepW c { f with gotFlag := false } 0 bit := by
    unfold processBit
    rw [hpos, List.range_succ_eq_map, List.foldl_cons, first]
    apply hall _ _ _ h1
    intro i hi
    simp only [List.mem_map, List.mem_range] at hi
    obtain ⟨j, hj, rfl⟩ := hi
    rw [h3]; simp only [hpos]; omega
  rw [this]
  refine ⟨h1, h2.trans (addMsg_sameQ ?_ _)⟩
  exact ⟨rfl, rfl, rfl⟩

/-! ### Runs of bits -/

def run1 (c : Cfg) (w : W) : List Bool → W × List (List UInt8)
  | [] => (w, [])
  | b :: bs =>
    let o := step1 c w b
    let r := run1 c o.1 bs
    (r.1, o.2.toList ++ r.2)

theorem run1_append (c : Cfg) (a : List Bool) : ∀ (b : List Bool) (w : W),
    run1 c w (a ++ b) = ((run1 c (run1 c w a).1 b).1, (run1 c w a).2 ++ (run1 c (run1 c w a).1 b).2) := by
  induction a with
  | nil => intro b w; simp [run1]
  | cons x a ih => intro b w; simp [run1, ih]

/-- Bits of the message collected so far. -/
def rdBits (w : W) : List Bool := msgLsb w.rd ++ (lsbBits 8 w.cur.toNat).take w.bitPos

/-- In a message. -/
def RInv (w : W) : Prop := w.st = .inMsg ∧ w.bitPos < 8 ∧ w.cur.toNat < 2 ^ w.bitPos

theorem rdBits_length {w : W} (h : RInv w) : (rdBits w).length = 8 * w.rd.length + w.bitPos := by
  have := h.2.1
  simp [rdBits]; omega

theorem step1_payload (c : Cfg) (w : W) (b : Bool) (h : RInv w) (h5 : w.ones ≠ 5)
    (hl : ((rdBits w).length + 1) / 8 ≤ c.maxRead) :
    ∃ w', step1 c w b = (w', none) ∧ RInv w' ∧ rdBits w' = rdBits w ++ [b] ∧ w'.ones = (if b then w.ones + 1 else 0) ∧
      w'.inUse = w.inUse := by
  rw [rdBits_length h] at hl
  obtain ⟨h1, h2, h3⟩ := h
  obtain ⟨iu, nw, un, on, st, cu, bp, rd⟩ := w
  simp only at h1 h2 h3 h5 hl
  subst h1
  obtain ⟨hb1, hb2⟩ := orBit_bits cu bp h2 h3 b
  simp only [step1, h5, if_false]
  by_cases h7 : bp = 7
  · simp only [h7, if_true]
    subst h7
    rw [if_neg (by omega)]
    refine ⟨_, rfl, ⟨rfl, by simp, by simp⟩, ?_, rfl, rfl⟩
    simp only [rdBits, List.take_zero, List.append_nil]
    rw [msgLsb_append, msgLsb_cons, msgLsb_nil, List.append_nil]
    rw [List.take_of_length_le (by simp)] at hb1
    rw [hb1]; simp
  · simp only [h7, if_false]
    refine ⟨_, rfl, ⟨rfl, by simp; omega, hb2⟩, ?_, rfl, rfl⟩
    simp only [rdBits]
    rw [hb1]; simp

theorem step1_stuffed (c : Cfg) (w : W) (h : RInv w) (h5 : w.ones = 5) :
    ∃ w', step1 c w false = (w', none) ∧ RInv w' ∧ rdBits w' = rdBits w ∧ w'.ones = 0 ∧ w'.inUse = w.inUse := by
  obtain ⟨h1, h2, h3⟩ := h
  obtain ⟨iu, nw, un, on, st, cu, bp, rd⟩ := w
  simp only at h1 h2 h3 h5
  subst h1 h5
  simp only [step1, if_true, Bool.false_eq_true, if_false]
  exact ⟨_, rfl, ⟨rfl, h2, h3⟩, rfl, rfl, rfl⟩

/-- Receiving stuffed bits. -/
theorem run1_stuff (c : Cfg) (bits : List Bool) : ∀ (w : W), RInv w → w.ones ≤ 5 →
    ((rdBits w).length + bits.length) / 8 ≤ c.maxRead →
    ∃ w', run1 c w (stuff w.ones bits) = (w', []) ∧ RInv w' ∧ rdBits w' = rdBits w ++ bits ∧
      w'.ones = stuffEnd w.ones bits ∧ w'.inUse = w.inUse := by
  induction bits with
  | nil => intro w h _ _; exact ⟨w, by simp [stuff, run1], h, by simp, rfl, rfl⟩
  | cons b bits ih =>
    intro w h hk hl
    simp only [List.length_cons] at hl
    by_cases h5 : w.ones = 5
    · obtain ⟨w1, e1, i1, b1, o1, u1⟩ := step1_stuffed c w h h5
      obtain ⟨w2, e2, i2, b2, o2, u2⟩ := step1_payload c w1 b i1 (by omega) (by rw [b1]; omega)
      rw [o1] at o2
      simp only [Nat.zero_add] at o2
      obtain ⟨w3, e3, i3, b3, o3, u3⟩ := ih w2 i2 (by rw [o2]; split <;> omega) (by rw [b2, b1]; simp; omega)
      rw [o2] at e3 o3
      refine ⟨w3, ?_, i3, by rw [b3, b2, b1]; simp, ?_, by rw [u3, u2, u1]⟩
      · rw [stuff, if_pos h5]; simp [run1, e1, e2, e3]
      · rw [stuffEnd, if_pos h5, o3]
    · obtain ⟨w2, e2, i2, b2, o2, u2⟩ := step1_payload c w b h h5 (by omega)
      obtain ⟨w3, e3, i3, b3, o3, u3⟩ := ih w2 i2 (by rw [o2]; split <;> omega) (by rw [b2]; simp; omega)
      rw [o2] at e3 o3
      refine ⟨w3, ?_, i3, by rw [b3, b2]; simp, ?_, by rw [u3, u2]⟩
      · rw [stuff, if_neg h5]; simp [run1, e2, e3]
      · rw [stuffEnd, if_neg h5, o3]

/-- Just after a flag. -/
def AtFlag (w : W) : Prop :=
  w.st = .inMsg ∧ w.ones = 0 ∧ w.cur = 0 ∧ w.bitPos = 0 ∧ w.rd = []

theorem AtFlag.inv {w : W} (h : AtFlag w) : RInv w ∧ rdBits w = [] := by
  obtain ⟨a, b, c, d, e⟩ := h
  exact ⟨⟨a, by omega, by rw [c, d]; decide⟩, by simp [rdBits, d, e]⟩

/-- The closing flag when the bits collected are `w`'s. -/
theorem run1_flag (c : Cfg) (w : W) (h : RInv w) (hk : w.ones ≤ 5)
    (hl : ((rdBits w).length + 6) / 8 ≤ c.maxRead) :
    ∃ w' w'', run1 c w flag = (w'', (checkMsg c w').toList) ∧ AtFlag w'' ∧
      rdBits w' = rdBits w ++ (if w.ones = 5 then List.replicate 5 true else false :: List.replicate 5 true) ∧
      w'.bitPos < 8 ∧ w''.inUse = w.inUse := by
  -- six bits: 0 and five ones
  have six : ∃ w1, run1 c w [false, true, true, true, true, true] = (w1, []) ∧ RInv w1 ∧ w1.ones = 5 ∧
      rdBits w1 = rdBits w ++ (if w.ones = 5 then List.replicate 5 true else false :: List.replicate 5 true) ∧
      w1.inUse = w.inUse := by
    by_cases h5 : w.ones = 5
    · obtain ⟨w0, e0, i0, b0, o0, u0⟩ := step1_stuffed c w h h5
      obtain ⟨w1, e1, i1, b1, o1, u1⟩ := run1_stuff c (List.replicate 5 true) w0 i0 (by omega) (by rw [b0]; simp; omega)
      rw [o0] at e1 o1
      have e : stuff 0 (List.replicate 5 true) = [true, true, true, true, true] := by decide
      rw [e] at e1
      refine ⟨w1, ?_, i1, ?_, by rw [b1, b0, if_pos h5], by rw [u1, u0]⟩
      · simp only [run1, e0] at e1 ⊢
        simpa using e1
      · rw [o1]; decide
    · obtain ⟨w0, e0, i0, b0, o0, u0⟩ := step1_payload c w false h h5 (by omega)
      simp only [Bool.false_eq_true, if_false] at o0
      obtain ⟨w1, e1, i1, b1, o1, u1⟩ := run1_stuff c (List.replicate 5 true) w0 i0 (by omega) (by rw [b0]; simp; omega)
      rw [o0] at e1 o1
      have e : stuff 0 (List.replicate 5 true) = [true, true, true, true, true] := by decide
      rw [e] at e1
      refine ⟨w1, ?_, i1, ?_, by rw [b1, b0, if_neg h5]; simp, by rw [u1, u0]⟩
      · simp only [run1, e0] at e1 ⊢
        simpa using e1
      · rw [o1]; decide
  obtain ⟨w1, e1, i1, o1, b1, u1⟩ := six
  have hf : flag = [false, true, true, true, true, true] ++ [true, false] := rfl
  rw [hf, run1_append, e1]
  obtain ⟨g1, g2, g3⟩ := i1
  obtain ⟨iu, nw, un, on, st, cu, bp, rd⟩ := w1
  simp only at g1 g2 g3 o1 u1
  subst g1 o1
  refine ⟨⟨iu, false, un, 0, .postLast0, cu, bp, rd⟩, ⟨iu, false, 0, 0, .inMsg, 0, 0, []⟩, ?_, ⟨rfl, rfl, rfl, rfl, rfl⟩, ?_,
    g2, u1⟩
  · simp [run1, step1]
  · rw [← b1]; rfl

theorem rd_of_bits {w : W} (hb : w.bitPos < 8) (m : List UInt8) (x : List Bool) (hx : x.length < 8)
    (h : rdBits w = msgLsb m ++ x) : w.rd = m ∧ w.bitPos = x.length := by
  have hl := congrArg List.length h
  simp [rdBits] at hl
  have h1 : w.rd.length = m.length := by omega
  have h2 : w.bitPos = x.length := by omega
  unfold rdBits at h
  obtain ⟨h3, _⟩ := List.append_inj h (by simp [h1])
  exact ⟨msgLsb_inj _ _ h3, h2⟩

/-- A frame a receiver shall deliver: its body is long enough, fits, and passes the address
test when that is on. -/
def Legal (c : Cfg) (d : List UInt8) : Prop :=
  d ≠ [] ∧ 3 ≤ (body c d).length ∧ (body c d).length ≤ c.maxRead ∧
    (c.checkAx25 = true → c.doCrc = true → 16 ≤ d.length ∧ c.axOk d = true)

end Gensio.Hdlc
