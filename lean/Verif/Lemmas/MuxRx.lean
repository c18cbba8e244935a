import Verif.Lemmas.MuxOps

/-!
# The receiving side of a mux channel
-/

namespace Gensio.Mux

/-! ## What a user sees -/

/-- What travels on a channel: bytes, in band or out of band, and ends of messages. -/
inductive Item
  | byte (b : UInt8) (oob : Bool)
  | eom (oob : Bool)
deriving Repr, DecidableEq

/-- What a message brings. -/
def items (f : Frame) : List Item :=
  f.2.map (fun b => Item.byte b (oobFlag f.1)) ++ (if eomFlag f.1 then [Item.eom (oobFlag f.1)] else [])

/-- What a read callback brings: the bytes taken, and the end of a message if that is marked and all was taken. -/
def callItems (c : List UInt8 × Nat × Bool × Bool) : List Item :=
  (c.1.take c.2.1).map (fun b => Item.byte b c.2.2.1) ++ (if c.2.2.2 ∧ c.2.1 = c.1.length then [Item.eom c.2.2.1] else [])

/-- What is left of a message of which `n` bytes were taken. -/
def leftOver (f : Frame) (n : Nat) : List Frame := if n < f.2.length then [(f.1, f.2.drop n)] else []

/-- Taking `n` bytes of a message in a callback that offers the whole of it. -/
theorem items_take (f : Frame) {n : Nat} (hn : n ≤ f.2.length) :
    callItems (f.2, n, oobFlag f.1, eomFlag f.1) ++ (leftOver f n).flatMap items = items f := by
  unfold leftOver callItems
  by_cases h : n < f.2.length
  · rw [if_pos h]
    simp only [List.flatMap_cons, List.flatMap_nil, List.append_nil, items]
    rw [if_neg (by omega), List.append_nil, ← List.append_assoc, ← List.map_append, List.take_append_drop]
  · rw [if_neg h]
    have : n = f.2.length := by omega
    subst this
    simp [items]

/-- Taking `n` bytes of the first part of a message. -/
theorem items_part (f : Frame) {n k : Nat} (hn : n ≤ k) (hk : k < f.2.length) :
    callItems (f.2.take k, n, oobFlag f.1, false) ++ items (f.1, f.2.drop n) = items f := by
  unfold callItems items
  simp only [Bool.false_eq_true, false_and, if_false, List.append_nil]
  rw [← List.append_assoc, ← List.map_append, List.take_take, Nat.min_eq_left hn, List.take_append_drop]

/-! ## Changing bytes in a ring buffer -/

theorem Holds.setAt {r : Ring} {l : List UInt8} (h : Holds r l) {k p : Nat} (hk : k < l.length)
    (hp : p = (r.pos + k) % r.data.length) (v : UInt8) : Holds { r with data := r.data.set p v } (l.set k v) := by
  have hp0 := h.pos0
  refine ⟨?_, ?_, ?_, ?_⟩
  · simpa using h.pos
  · simpa using h.len
  · simpa using h.fit
  · intro j hj
    simp only [List.length_set] at hj ⊢
    have hf := h.fit
    have hpos := h.pos
    rw [List.getElem?_set, List.getElem_set]
    have hlt : (r.pos + j) % r.data.length < r.data.length := Nat.mod_lt _ hp0
    by_cases hjk : k = j
    · subst hjk
      rw [if_pos hp, if_pos rfl, if_pos (by rw [hp]; exact hlt)]
    · rw [if_neg hjk, if_neg]
      · exact h.get j hj
      · rw [hp]
        intro e
        apply hjk
        have hw : ∀ q, q < r.data.length → (r.pos + q) % r.data.length =
            if r.pos + q < r.data.length then r.pos + q else r.pos + q - r.data.length := by
          intro q hq
          split
          · exact Nat.mod_eq_of_lt (by omega)
          · exact mod_sub (by omega) (by omega)
        rw [hw k (by omega), hw j (by omega)] at e
        split at e <;> split at e <;> omega

/-- The channel after a part of its first message was used. -/
structure AfterRead (c c' : Chan) (f : Frame) (n : Nat) (rest : List UInt8) : Prop where
  ring : Holds c'.rd ((leftOver f n).flatMap enc ++ rest)
  tot : c'.rd.len + c'.recvUnacked = c.rd.len + c.recvUnacked
  size : c'.rd.data.length = c.rd.data.length
  same : c' = { c with rd := c'.rd, recvUnacked := c'.recvUnacked }
  grow : c.recvUnacked ≤ c'.recvUnacked

theorem afterRead_spec {c : Chan} {f : Frame} {n : Nat} {rest : List UInt8} (h : Holds c.rd (enc f ++ rest))
    (hf : FrameOk f) (hn : n ≤ f.2.length) : AfterRead c (c.afterRead f.1 (f.2.length - n) n) f n rest := by
  have hlen := h.len
  have hfit := h.fit
  rw [List.length_append, enc_length] at hlen hfit
  rw [Chan.afterRead]
  by_cases hl : n < f.2.length
  · rw [if_pos (by omega)]
    simp only
    have hd := h.drop (n := n) (by rw [List.length_append, enc_length]; omega)
    have hdl : ((enc f ++ rest).drop n).length = f.2.length + 3 + rest.length - n := by
      rw [List.length_drop, List.length_append, enc_length]
    have hdata : ({ c.rd with pos := c.rd.next n, len := c.rd.len - n } : Ring).data = c.rd.data := rfl
    have h0 := hd.setAt (k := 0) (p := c.rd.next n) (by omega)
      (by simp only [Nat.add_zero]; exact (Nat.mod_eq_of_lt hd.pos).symm) f.1
    have n1 := hd.next (n := 1) (by simp only; omega)
    have n2 := hd.next (n := 2) (by simp only; omega)
    have h1 := h0.setAt (k := 1) (p := ({ c.rd with pos := c.rd.next n, len := c.rd.len - n } : Ring).next 1)
      (by rw [List.length_set]; omega) (by rw [n1]; simp) (UInt8.ofNat ((f.2.length - n) / 256))
    have h2 := h1.setAt (k := 2) (p := ({ c.rd with pos := c.rd.next n, len := c.rd.len - n } : Ring).next 2)
      (by rw [List.length_set, List.length_set]; omega) (by rw [n2]; simp) (UInt8.ofNat (f.2.length - n))
    have hcont : (((((enc f ++ rest).drop n).set 0 f.1).set 1 (UInt8.ofNat ((f.2.length - n) / 256))).set 2
        (UInt8.ofNat (f.2.length - n))) = (leftOver f n).flatMap enc ++ rest := by
      have hsplit : (enc f ++ rest).drop n = (enc f).drop n ++ rest := by
        rw [List.drop_append_of_le_length (by rw [enc_length]; omega)]
      obtain ⟨a, b, d, hx⟩ : ∃ a b d, (enc f).drop n = a :: b :: d :: f.2.drop n := by
        have hl2 : ((enc f).drop n).length = f.2.length + 3 - n := by rw [List.length_drop, enc_length]
        have hd3 : ((enc f).drop n).drop 3 = f.2.drop n := by
          rw [List.drop_drop, Nat.add_comm, ← List.drop_drop]
          rfl
        rcases hq : (enc f).drop n with _ | ⟨a, _ | ⟨b, _ | ⟨d, t⟩⟩⟩
        · rw [hq] at hl2; simp at hl2; omega
        · rw [hq] at hl2; simp at hl2; omega
        · rw [hq] at hl2; simp at hl2; omega
        · rw [hq] at hd3; exact ⟨a, b, d, by rw [← hd3]; rfl⟩
      rw [hsplit, hx, leftOver, if_pos hl]
      simp [enc, be16, List.length_drop]
    rw [hcont] at h2
    exact ⟨h2, by simp only; omega, by simp, rfl, by simp⟩
  · rw [if_neg (by omega)]
    have : n = f.2.length := by omega
    have hd := h.drop (n := n + 3) (by rw [List.length_append, enc_length]; omega)
    refine ⟨?_, by simp only; omega, rfl, rfl, by simp only; omega⟩
    rw [leftOver, if_neg (by omega), List.flatMap_nil, List.nil_append]
    rwa [List.drop_left' (by rw [enc_length]; omega)] at hd

/-! ## Delivering -/

/-- Delivering messages: of the messages `R` in front of `p`, `R'` are left. -/
structure Deliver (c c' : Chan) (R R' : List Frame) (p : List UInt8) : Prop where
  ring : Holds c'.rd (R'.flatMap enc ++ p)
  ok : ∀ f ∈ R', FrameOk f
  marks : (∀ f ∈ R, oobFlag f.1 = true → c.doOob = true) → ∀ f ∈ R', oobFlag f.1 = true → c'.doOob = true
  tot : c'.rd.len + c'.recvUnacked = c.rd.len + c.recvUnacked
  grow : c.recvUnacked ≤ c'.recvUnacked
  size : c'.rd.data.length = c.rd.data.length
  same : c' = { c with rd := c'.rd, recvUnacked := c'.recvUnacked, readEnabled := c'.readEnabled, calls := c'.calls }
  calls : ∃ cs, c'.calls = c.calls ++ cs ∧ cs.flatMap callItems ++ R'.flatMap items = R.flatMap items

theorem Deliver.refl {c : Chan} {R : List Frame} {p : List UInt8} (h : Holds c.rd (R.flatMap enc ++ p))
    (hok : ∀ f ∈ R, FrameOk f) : Deliver c c R R p :=
  ⟨h, hok, fun h => h, rfl, Nat.le_refl _, rfl, rfl, [], by simp, by simp⟩

theorem Deliver.trans {a b c : Chan} {R1 R2 R3 : List Frame} {p : List UInt8} (h1 : Deliver a b R1 R2 p)
    (h2 : Deliver b c R2 R3 p) : Deliver a c R1 R3 p := by
  obtain ⟨cs1, e1, i1⟩ := h1.calls
  obtain ⟨cs2, e2, i2⟩ := h2.calls
  refine ⟨h2.ring, h2.ok, fun h => h2.marks (h1.marks h), h2.tot.trans h1.tot, Nat.le_trans h1.grow h2.grow,
    h2.size.trans h1.size, ?_, cs1 ++ cs2, ?_, ?_⟩
  · rw [h2.same, h1.same]
  · rw [e2, e1, List.append_assoc]
  · rw [List.flatMap_append, List.append_assoc, i2, i1]

theorem leftOver_ok {f : Frame} (hf : FrameOk f) {n : Nat} : ∀ g ∈ leftOver f n, FrameOk g := by
  intro g hg
  rw [leftOver] at hg
  split at hg
  · rw [List.mem_singleton.mp hg]
    exact ⟨by simp only [List.length_drop]; omega, by simp only [List.length_drop]; have := hf.2; omega⟩
  · cases hg

theorem leftOver_mark {f g : Frame} {n : Nat} (hg : g ∈ leftOver f n) : g.1 = f.1 := by
  rw [leftOver] at hg
  split at hg
  · rw [List.mem_singleton.mp hg]
  · cases hg

/-- One callback that offers the whole message, or what is left of it. -/
theorem deliver2_spec {c : Chan} {f : Frame} {R : List Frame} {p : List UInt8} {pos m : Nat}
    (h : Holds c.rd (enc f ++ (R.flatMap enc ++ p))) (hf : FrameOk f) (hR : ∀ g ∈ R, FrameOk g) (hm : m < f.2.length)
    (hpos : (c.rd.data.drop pos).take (f.2.length - m) = f.2.drop m) (a : Ans) :
    ∃ R' n cs, (c.deliver2 f.1 (oobFlag f.1) pos (f.2.length - m) m a).calls = c.calls ++ cs
      ∧ cs.flatMap callItems ++ R'.flatMap items = items (f.1, f.2.drop m) ++ R.flatMap items
      ∧ AfterRead c { c.deliver2 f.1 (oobFlag f.1) pos (f.2.length - m) m a with
          calls := c.calls, readEnabled := c.readEnabled } f n (R.flatMap enc ++ p)
      ∧ R' = leftOver f n ++ R := by
  rw [Chan.deliver2]
  simp only [Chan.callback]
  have hn : min a.1 (f.2.length - m) ≤ f.2.length - m := Nat.min_le_right _ _
  generalize hnd : min a.1 (f.2.length - m) = n at *
  have key := afterRead_spec (n := m + n)
    (c := { c with readEnabled := a.2, calls := c.calls ++ [((c.rd.data.drop pos).take (f.2.length - m), n, oobFlag f.1,
      eomFlag f.1)] }) h hf (by omega)
  rw [show f.2.length - (m + n) = f.2.length - m - n by omega] at key
  refine ⟨leftOver f (m + n) ++ R, m + n, [(f.2.drop m, n, oobFlag f.1, eomFlag f.1)], ?_, ?_, ?_, rfl⟩
  · rw [key.same, hpos]
  · have hi := items_take (f.1, f.2.drop m) (n := n) (by simp only [List.length_drop]; exact hn)
    simp only [List.flatMap_cons, List.flatMap_nil, List.append_nil, List.flatMap_append]
    rw [← List.append_assoc, ← hi]
    congr 2
    rw [leftOver, leftOver]
    simp only [List.length_drop, List.drop_drop]
    by_cases h1 : n < f.2.length - m
    · rw [if_pos (by omega), if_pos h1]
    · rw [if_neg (by omega), if_neg h1]
  · refine ⟨key.ring, key.tot, key.size, ?_, key.grow⟩
    have := key.same
    rw [this]

theorem deliver_spec {c : Chan} {f : Frame} {R : List Frame} {p : List UInt8}
    (h : Holds c.rd ((f :: R).flatMap enc ++ p)) (hok : ∀ g ∈ f :: R, FrameOk g)
    (hoob : oobFlag f.1 = true → c.doOob = true) (ans : List Ans) :
    ∃ R', Deliver c (c.deliver f.2.length ans).1 (f :: R) R' p := by
  have hf := hok f (List.mem_cons_self ..)
  have hR : ∀ g ∈ R, FrameOk g := fun g hg => hok g (List.mem_cons_of_mem _ hg)
  rw [List.flatMap_cons, List.append_assoc] at h
  have hlen := h.len
  have hfit := h.fit
  rw [List.length_append, enc_length] at hlen hfit
  have hfl : c.rd.data.getD c.rd.pos 0 = f.1 := by
    rw [h.getD0 (by rw [List.length_append, enc_length]; omega)]
    simp [enc]
  have hp3 : c.rd.next 3 = (c.rd.pos + 3) % c.rd.data.length := h.next (by omega)
  have hp3lt : c.rd.next 3 < c.rd.data.length := by rw [hp3]; exact Nat.mod_lt _ h.pos0
  have hdrop : (enc f ++ (R.flatMap enc ++ p)).drop 3 = f.2 ++ (R.flatMap enc ++ p) := by simp [enc, be16]
  have fin : ∀ (c' : Chan) (R' : List Frame) (n : Nat) (cs : List (List UInt8 × Nat × Bool × Bool)),
      c'.calls = c.calls ++ cs → cs.flatMap callItems ++ R'.flatMap items = items f ++ R.flatMap items →
      AfterRead c { c' with calls := c.calls, readEnabled := c.readEnabled } f n (R.flatMap enc ++ p) →
      R' = leftOver f n ++ R → Deliver c c' (f :: R) R' p := by
    intro c' R' n cs e1 e2 e3 e4
    have hsame : c' = { c with rd := c'.rd, recvUnacked := c'.recvUnacked, readEnabled := c'.readEnabled,
                               calls := c'.calls } := by
      have := e3.same
      simp only at this
      cases c'
      simp only [Chan.mk.injEq] at this ⊢
      obtain ⟨a1, a2, a3, a4, a5, a6, a7, a8, a9, a10, a11, a12, a13, a14, a15, a16, a17, a18, a19, a20, a21, a22, a23,
        a24, a25, a26⟩ := this
      exact ⟨a1, a2, a3, a4, a5, a6, a7, a8, a9, a10, trivial, trivial, trivial, a14, a15, a16, a17, a18, a19, a20, a21, a22,
        a23, a24, a25, trivial⟩
    refine ⟨?_, ?_, ?_, e3.tot, e3.grow, e3.size, hsame, cs, e1, by rw [e2]; simp⟩
    · have := e3.ring
      rw [e4, List.flatMap_append, List.append_assoc]
      exact this
    · intro g hg
      rw [e4] at hg
      rcases List.mem_append.mp hg with hg | hg
      · exact leftOver_ok hf g hg
      · exact hR g hg
    · intro hm g hg ho
      have hd : c'.doOob = c.doOob := by rw [hsame]
      rw [hd]
      rw [e4] at hg
      rcases List.mem_append.mp hg with hg | hg
      · exact hm f (List.mem_cons_self ..) (by rw [← leftOver_mark hg]; exact ho)
      · exact hm g (List.mem_cons_of_mem _ hg) ho
  rw [Chan.deliver]
  simp only [hfl]
  rw [if_neg (by cases ho : oobFlag f.1 with
    | false => simp
    | true => simp [hoob ho])]
  by_cases hwrap : c.rd.next 3 + f.2.length > c.rd.data.length
  · rw [if_pos hwrap]
    have hk1 : (c.rd.data.drop (c.rd.next 3)).take (c.rd.data.length - c.rd.next 3)
        = f.2.take (c.rd.data.length - c.rd.next 3) := by
      rw [h.slice (k := 3) (n := c.rd.data.length - c.rd.next 3) (by rw [List.length_append, enc_length]; omega) hp3
        (by omega), hdrop, List.take_append_of_le_length (by omega)]
    have hk2 : (c.rd.data.drop 0).take (f.2.length - (c.rd.data.length - c.rd.next 3))
        = f.2.drop (c.rd.data.length - c.rd.next 3) := by
      have := h.slice2 (k := 3) (n := f.2.length) (by rw [List.length_append, enc_length]; omega) hp3 hwrap
      rw [hdrop, List.take_left' rfl, hk1] at this
      have h2 : f.2.take (c.rd.data.length - c.rd.next 3) ++ f.2.drop (c.rd.data.length - c.rd.next 3) = f.2 :=
        List.take_append_drop ..
      exact List.append_cancel_left (this.trans h2.symm)
    generalize hkd : c.rd.data.length - c.rd.next 3 = k at *
    have hn : min (popAns ans).1.1 k ≤ k := Nat.min_le_right _ _
    have hip := items_part f (n := min (popAns ans).1.1 k) (k := k) hn (by omega)
    by_cases hstop : (c.callback (c.rd.next 3) k (oobFlag f.1) false (popAns ans).1).2 < k
        ∨ (c.callback (c.rd.next 3) k (oobFlag f.1) false (popAns ans).1).1.readEnabled = false
    · rw [if_pos hstop]
      simp only [Chan.callback, hk1] at hstop ⊢
      generalize hnd : min (popAns ans).1.1 k = n at *
      have key := afterRead_spec (n := n)
        (c := { c with readEnabled := (popAns ans).1.2, calls := c.calls ++ [(f.2.take k, n, oobFlag f.1, false)] }) h hf
        (by omega)
      refine ⟨leftOver f n ++ R, fin _ _ n [(f.2.take k, n, oobFlag f.1, false)] ?_ ?_ ?_ rfl⟩
      · rw [key.same]
      · simp only [List.flatMap_cons, List.flatMap_nil, List.append_nil, List.flatMap_append]
        rw [← List.append_assoc, leftOver, if_pos (by omega)]
        simp only [List.flatMap_cons, List.flatMap_nil, List.append_nil]
        rw [hip]
      · exact ⟨key.ring, key.tot, key.size, by rw [key.same], key.grow⟩
    · rw [if_neg hstop]
      simp only [Chan.callback, hk1] at hstop ⊢
      generalize hnd : min (popAns ans).1.1 k = n at *
      have hnk : n = k := by omega
      subst hnk
      obtain ⟨R', n', cs, b1, b2, b3, b4⟩ := deliver2_spec (pos := 0) (m := n)
        (c := { c with readEnabled := (popAns ans).1.2, calls := c.calls ++ [(f.2.take n, n, oobFlag f.1, false)] }) h hf hR
        (by omega) hk2 (popAns (popAns ans).2).1
      refine ⟨R', fin _ R' n' ([(f.2.take n, n, oobFlag f.1, false)] ++ cs) ?_ ?_ ?_ b4⟩
      · rw [b1]; simp
      · rw [List.flatMap_append, List.append_assoc, b2, ← List.append_assoc]
        simp only [List.flatMap_cons, List.flatMap_nil, List.append_nil]
        rw [hip]
      · refine ⟨b3.ring, b3.tot, b3.size, ?_, b3.grow⟩
        have := b3.same
        simp only [Chan.mk.injEq] at this ⊢
        obtain ⟨a1, a2, a3, a4, a5, a6, a7, a8, a9, a10, a11, a12, a13, a14, a15, a16, a17, a18, a19, a20, a21, a22, a23,
          a24, a25, a26⟩ := this
        exact ⟨a1, a2, a3, a4, a5, a6, a7, a8, a9, a10, trivial, trivial, trivial, a14, a15, a16, a17, a18, a19, a20, a21,
          a22, a23, a24, a25, trivial⟩
  · rw [if_neg hwrap]
    simp only
    have hk : (c.rd.data.drop (c.rd.next 3)).take (f.2.length - 0) = f.2.drop 0 := by
      rw [Nat.sub_zero, List.drop_zero]
      rw [h.slice (k := 3) (by rw [List.length_append, enc_length]; omega) hp3 (by omega), hdrop, List.take_left' rfl]
    obtain ⟨R', n, cs, b1, b2, b3, b4⟩ := deliver2_spec (m := 0) h hf hR (by have := hf.1; omega) hk (popAns ans).1
    rw [Nat.sub_zero] at b1 b3
    exact ⟨R', fin _ R' n cs b1 (by simpa using b2) b3 b4⟩

/-- What may follow the complete messages in the read buffer: nothing, or a message that is not complete. -/
def PartOk (p : List UInt8) : Prop :=
  p = [] ∨ ∃ (fl : UInt8) (size : Nat) (sofar : List UInt8), p = fl :: (be16 size ++ sofar) ∧ size < 65536
    ∧ sofar.length < size

theorem fullMsg_spec {c : Chan} {R : List Frame} {p : List UInt8} (h : Holds c.rd (R.flatMap enc ++ p))
    (hok : ∀ g ∈ R, FrameOk g) (hp : PartOk p) :
    ∃ n b, c.fullMsg = some (n, b) ∧ (b = true ↔ ∃ f R', R = f :: R' ∧ n = f.2.length) := by
  have hlen := h.len
  have hfit := h.fit
  rw [Chan.fullMsg]
  have key : ∀ (fl : UInt8) (size : Nat) (t : List UInt8), R.flatMap enc ++ p = fl :: (be16 size ++ t) → size < 65536 →
      0 < size → c.rd.len ≠ 0 ∧ ¬ c.rd.len < 3
      ∧ (c.rd.data.getD (c.rd.next 1) 0).toNat * 256 + (c.rd.data.getD (c.rd.next 2) 0).toNat = size := by
    intro fl size t e hs h0
    rw [e] at hlen hfit h
    simp only [List.length_cons, List.length_append, be16_length] at hlen hfit
    refine ⟨by omega, by omega, ?_⟩
    have g1 : c.rd.data.getD (c.rd.next 1) 0 = UInt8.ofNat (size / 256) := by
      rw [h.getD (n := 1) (by simp [be16])]; rfl
    have g2 : c.rd.data.getD (c.rd.next 2) 0 = UInt8.ofNat size := by
      rw [h.getD (n := 2) (by simp [be16])]; rfl
    rw [g1, g2, be16_val hs]
  cases R with
  | cons f R =>
    have hf := hok f (List.mem_cons_self ..)
    obtain ⟨k1, k2, k3⟩ := key f.1 f.2.length (f.2 ++ R.flatMap enc ++ p) (by simp [enc]) hf.2 hf.1
    rw [if_neg k1, if_neg k2, k3]
    simp only
    rw [if_neg (by have := hf.1; omega)]
    refine ⟨_, _, rfl, ?_⟩
    rw [List.flatMap_cons, List.length_append, List.length_append, enc_length] at hlen
    rw [decide_eq_true (by omega)]
    simp only [true_iff]
    exact ⟨f, R, rfl, rfl⟩
  | nil =>
    rcases hp with rfl | ⟨fl, size, sofar, rfl, hs, hl⟩
    · rw [if_pos (by rw [hlen]; rfl)]
      exact ⟨0, false, rfl, by simp⟩
    · obtain ⟨k1, k2, k3⟩ := key fl size sofar (by simp) hs (by omega)
      rw [if_neg k1, if_neg k2, k3]
      simp only
      rw [if_neg (by omega)]
      refine ⟨_, _, rfl, ?_⟩
      simp only [List.flatMap_nil, List.nil_append, List.length_cons, List.length_append, be16_length] at hlen
      rw [decide_eq_false (by omega)]
      simp

theorem readLoop_spec : ∀ (fuel : Nat) (c : Chan) (R : List Frame) (p : List UInt8) (ans : List Ans),
    Holds c.rd (R.flatMap enc ++ p) → (∀ g ∈ R, FrameOk g) → PartOk p → c.err = 0 →
    (∀ f ∈ R, oobFlag f.1 = true → c.doOob = true) →
    ∃ c' R', c.readLoop fuel ans = some c' ∧ Deliver c c' R R' p
  | 0, c, R, p, ans, h, hok, _, _, _ => ⟨c, R, rfl, .refl h hok⟩
  | fuel + 1, c, R, p, ans, h, hok, hp, he, ho => by
    rw [Chan.readLoop]
    obtain ⟨n, b, e, hb⟩ := fullMsg_spec h hok hp
    rw [e]
    simp only
    by_cases hr : c.readEnabled = false
    · rw [if_pos hr]; exact ⟨c, R, rfl, .refl h hok⟩
    · rw [if_neg hr]
      cases b with
      | false =>
        rw [if_neg (by simp), if_neg (by simp [he])]
        exact ⟨c, R, rfl, .refl h hok⟩
      | true =>
        rw [if_pos rfl]
        obtain ⟨f, R1, rfl, rfl⟩ := hb.mp rfl
        obtain ⟨R2, hd⟩ := deliver_spec h hok (ho f (List.mem_cons_self ..)) ans
        have he2 : (c.deliver f.2.length ans).1.err = 0 := by rw [hd.same]; exact he
        obtain ⟨c', R3, e3, hd3⟩ := readLoop_spec fuel _ R2 p (c.deliver f.2.length ans).2 hd.ring hd.ok hp he2 (hd.marks ho)
        exact ⟨c', R3, e3, hd.trans hd3⟩

end Gensio.Mux
