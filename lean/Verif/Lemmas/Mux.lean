import Verif.Model.Mux

/-!
# Lemmas about the ring buffers and messages of a mux
-/

namespace Gensio.Mux

/-! ## Ring buffers -/

/-- The ring holds exactly the bytes `l`. -/
structure Holds (r : Ring) (l : List UInt8) : Prop where
  pos : r.pos < r.data.length
  len : r.len = l.length
  fit : l.length ≤ r.data.length
  get : ∀ j (h : j < l.length), r.data[(r.pos + j) % r.data.length]? = some l[j]

theorem wrap_eq {p n : Nat} (hn : 0 < n) (h : p < 2 * n) : (if p ≥ n then p - n else p) = p % n := by
  split
  · rename_i hge
    have : p = (p - n) + n := by omega
    rw [this, Nat.add_mod_right, Nat.mod_eq_of_lt (by omega)]
    omega
  · rw [Nat.mod_eq_of_lt (by omega)]

theorem Holds.pos0 {r : Ring} {l : List UInt8} (h : Holds r l) : 0 < r.data.length := by
  have := h.pos; omega

theorem Holds.next {r : Ring} {l : List UInt8} (h : Holds r l) {n : Nat} (hn : n ≤ r.data.length) :
    r.next n = (r.pos + n) % r.data.length := by
  have := h.pos
  exact wrap_eq h.pos0 (by omega)

theorem Holds.getD {r : Ring} {l : List UInt8} (h : Holds r l) {n : Nat} (hn : n < l.length) :
    r.data.getD (r.next n) 0 = l[n] := by
  have hf := h.fit
  rw [h.next (by omega), List.getD_eq_getElem?_getD, h.get n hn]
  rfl

theorem Holds.getD0 {r : Ring} {l : List UInt8} (h : Holds r l) (hn : 0 < l.length) :
    r.data.getD r.pos 0 = l[0] := by
  have := h.get 0 hn
  rw [Nat.add_zero, Nat.mod_eq_of_lt h.pos] at this
  rw [List.getD_eq_getElem?_getD, this]
  rfl

/-- Taking bytes off the front. -/
theorem Holds.drop {r : Ring} {l : List UInt8} (h : Holds r l) {n : Nat} (hn : n ≤ l.length) :
    Holds { r with pos := r.next n, len := r.len - n } (l.drop n) := by
  have hf := h.fit
  have hp := h.pos0
  refine ⟨?_, ?_, ?_, ?_⟩
  · simp only; rw [h.next (by omega)]; exact Nat.mod_lt _ hp
  · simp only [List.length_drop, h.len]
  · simp only [List.length_drop]; omega
  · intro j hj
    simp only [List.length_drop] at hj
    simp only [List.getElem_drop]
    rw [h.next (by omega), Nat.mod_add_mod, ← h.get (n + j) (by omega), Nat.add_assoc]

theorem blit_some {buf d : List UInt8} {off : Nat} (h : off + d.length ≤ buf.length) :
    ∃ b, blit buf off d = some b ∧ b.length = buf.length
      ∧ (∀ j, j < off ∨ off + d.length ≤ j → b[j]? = buf[j]?)
      ∧ (∀ j (hj : j < d.length), b[off + j]? = some d[j]) := by
  refine ⟨_, by rw [blit, if_pos h], ?_, ?_, ?_⟩
  · simp only [List.length_append, List.length_take, List.length_drop]; omega
  · intro j hj
    rcases hj with hj | hj
    · rw [List.append_assoc, List.getElem?_append_left (by simp only [List.length_take]; omega), List.getElem?_take,
        if_pos hj]
    · rw [List.getElem?_append_right (by simp only [List.length_append, List.length_take]; omega), List.getElem?_drop]
      congr 1
      simp only [List.length_append, List.length_take]; omega
  · intro j hj
    rw [List.append_assoc, List.getElem?_append_right (by simp only [List.length_take]; omega),
      List.getElem?_append_left (by simp only [List.length_take]; omega)]
    rw [List.getElem?_eq_getElem (by simp only [List.length_take]; omega)]
    congr 1
    congr 1
    simp only [List.length_take]; omega

theorem mod_sub {a n : Nat} (h1 : n ≤ a) (h2 : a < 2 * n) : a % n = a - n := by
  rw [Nat.mod_eq_sub_mod h1, Nat.mod_eq_of_lt (by omega)]

/-- Adding bytes that fit. -/
theorem Holds.add {r : Ring} {l d : List UInt8} (h : Holds r l) (hfit : l.length + d.length ≤ r.data.length) :
    ∃ r', r.add d = some r' ∧ Holds r' (l ++ d) ∧ r'.pos = r.pos ∧ r'.data.length = r.data.length := by
  have hp := h.pos
  have hl := h.len
  have hp0 := h.pos0
  -- what the new buffer must look like
  have key : ∀ data', data'.length = r.data.length →
      (∀ j, j < l.length → data'[(r.pos + j) % r.data.length]? = r.data[(r.pos + j) % r.data.length]?) →
      (∀ j (hj : j < d.length), data'[(r.pos + (l.length + j)) % r.data.length]? = some d[j]) →
      Holds { r with data := data', len := r.len + d.length } (l ++ d) := by
    intro data' hlen hold hnew
    refine ⟨by simp only; omega, by simp only [List.length_append]; omega, by simp only [List.length_append]; omega, ?_⟩
    intro j hj
    simp only [hlen]
    by_cases hjl : j < l.length
    · rw [hold j hjl, h.get j hjl, List.getElem_append_left hjl]
    · have := hnew (j - l.length) (by simp only [List.length_append] at hj; omega)
      rw [show l.length + (j - l.length) = j by omega] at this
      rw [this, List.getElem_append_right (by omega)]
  rw [Ring.add]
  have hep : (if r.pos + r.len ≥ r.data.length then r.pos + r.len - r.data.length else r.pos + r.len)
      = (r.pos + l.length) % r.data.length := by
    rw [hl]; exact wrap_eq hp0 (by omega)
  simp only [hep]
  have hlt : (r.pos + l.length) % r.data.length < r.data.length := Nat.mod_lt _ hp0
  generalize hE : (r.pos + l.length) % r.data.length = e at *
  by_cases hw : d.length + e > r.data.length
  · rw [if_pos hw]
    obtain ⟨b1, e1, l1, o1, n1⟩ := blit_some (buf := r.data) (off := e) (d := d.take (r.data.length - e))
      (by simp only [List.length_take]; omega)
    obtain ⟨b2, e2, l2, o2, n2⟩ := blit_some (buf := b1) (off := 0) (d := d.drop (r.data.length - e))
      (by simp only [List.length_drop]; omega)
    simp only [e1, e2]
    -- without a wrap of the old contents
    have hnw : r.pos + l.length < r.data.length := by
      refine Nat.lt_of_not_le fun hge => ?_
      rw [mod_sub hge (by omega)] at hE
      omega
    rw [Nat.mod_eq_of_lt hnw] at hE
    refine ⟨_, rfl, key b2 (by omega) ?_ ?_, rfl, by simp only; omega⟩
    · intro j hj
      rw [Nat.mod_eq_of_lt (by omega)]
      rw [o2 _ (Or.inr (by simp only [List.length_drop]; omega)), o1 _ (Or.inl (by omega))]
    · intro j hj
      by_cases hjk : j < r.data.length - e
      · rw [Nat.mod_eq_of_lt (by omega)]
        rw [o2 _ (Or.inr (by simp only [List.length_drop]; omega))]
        rw [show r.pos + (l.length + j) = e + j by omega]
        rw [n1 j (by simp only [List.length_take]; omega), List.getElem_take]
      · rw [mod_sub (by omega) (by omega)]
        have := n2 (j - (r.data.length - e)) (by simp only [List.length_drop]; omega)
        rw [show 0 + (j - (r.data.length - e)) = r.pos + (l.length + j) - r.data.length by omega] at this
        rw [this, List.getElem_drop]
        congr 2
        omega
  · rw [if_neg hw]
    obtain ⟨b1, e1, l1, o1, n1⟩ := blit_some (buf := r.data) (off := e) (d := d) (by omega)
    simp only [e1]
    refine ⟨_, rfl, key b1 l1 ?_ ?_, rfl, l1⟩
    · intro j hj
      refine o1 _ ?_
      by_cases hc : r.pos + l.length < r.data.length
      · rw [Nat.mod_eq_of_lt hc] at hE
        rw [Nat.mod_eq_of_lt (by omega)]
        omega
      · rw [mod_sub (by omega) (by omega)] at hE
        by_cases hc2 : r.pos + j < r.data.length
        · rw [Nat.mod_eq_of_lt hc2]; omega
        · rw [mod_sub (by omega) (by omega)]; omega
    · intro j hj
      rw [← n1 j hj]
      congr 1
      rw [← Nat.add_assoc]
      have : r.pos + l.length + j = (r.pos + l.length) + j := rfl
      rw [Nat.add_mod, hE]
      by_cases hd : j < r.data.length
      · rw [Nat.mod_eq_of_lt hd, Nat.mod_eq_of_lt (by omega)]
      · have h1 : j = r.data.length ∨ r.data.length < j := by omega
        omega

/-- Reading a run of bytes that does not wrap. -/
theorem Holds.slice {r : Ring} {l : List UInt8} (h : Holds r l) {k n : Nat} (hk : k + n ≤ l.length) {p : Nat}
    (hp : p = (r.pos + k) % r.data.length) (hw : p + n ≤ r.data.length) :
    (r.data.drop p).take n = (l.drop k).take n := by
  apply List.ext_getElem?
  intro j
  have hf := h.fit
  by_cases hj : j < n
  · rw [List.getElem?_take, if_pos hj, List.getElem?_take, if_pos hj, List.getElem?_drop, List.getElem?_drop,
      List.getElem?_eq_getElem (show k + j < l.length by omega), ← h.get (k + j) (by omega)]
    congr 1
    rw [hp, ← Nat.add_assoc, Nat.add_mod (r.pos + k) j]
    rw [← hp, Nat.mod_eq_of_lt (show j < r.data.length by omega), Nat.mod_eq_of_lt (by omega)]
  · rw [List.getElem?_eq_none (by simp only [List.length_take, List.length_drop]; omega),
      List.getElem?_eq_none (by simp only [List.length_take, List.length_drop]; omega)]

/-- Reading a run of bytes in two parts. -/
theorem Holds.slice2 {r : Ring} {l : List UInt8} (h : Holds r l) {k n : Nat} (hk : k + n ≤ l.length) {p : Nat}
    (hp : p = (r.pos + k) % r.data.length) (hw : r.data.length < p + n) :
    (r.data.drop p).take (r.data.length - p) ++ (r.data.drop 0).take (n - (r.data.length - p)) = (l.drop k).take n := by
  have hf := h.fit
  have hpl : p < r.data.length := by rw [hp]; exact Nat.mod_lt _ h.pos0
  have h1 : (r.data.drop p).take (r.data.length - p) = (l.drop k).take (r.data.length - p) :=
    h.slice (k := k) (by omega) hp (by omega)
  have h2 : (r.data.drop 0).take (n - (r.data.length - p))
      = (l.drop (k + (r.data.length - p))).take (n - (r.data.length - p)) := by
    refine h.slice (by omega) ?_ (by omega)
    have : (r.pos + (k + (r.data.length - p))) % r.data.length = 0 := by
      rw [← Nat.add_assoc, Nat.add_mod, ← hp]
      by_cases hp0 : p = 0
      · subst hp0
        rw [Nat.sub_zero, Nat.mod_self, Nat.zero_add, Nat.zero_mod]
      · rw [Nat.mod_eq_of_lt (show r.data.length - p < r.data.length by omega),
          show p + (r.data.length - p) = r.data.length by omega, Nat.mod_self]
    exact this.symm
  rw [h1, h2, ← List.drop_drop]
  have : ∀ (x : List UInt8) (a b : Nat), a ≤ b → x.take a ++ (x.drop a).take (b - a) = x.take b := by
    intro x a b hab
    have := List.take_add (l := x) (i := a) (j := b - a)
    rw [show a + (b - a) = b by omega] at this
    exact this.symm
  exact this _ _ _ (by omega)

/-! ## Numbers in messages -/

theorem toNat_ofNat (n : Nat) : (UInt8.ofNat n).toNat = n % 256 := by simp

theorem be16_length (n : Nat) : (be16 n).length = 2 := rfl
theorem be32_length (n : Nat) : (be32 n).length = 4 := rfl

theorem be16_val {n : Nat} (h : n < 65536) :
    (UInt8.ofNat (n / 256)).toNat * 256 + (UInt8.ofNat n).toNat = n := by
  rw [toNat_ofNat, toNat_ofNat]; omega

theorem be32_val {n : Nat} (h : n < 4294967296) :
    (UInt8.ofNat (n / 16777216)).toNat * 16777216 + (UInt8.ofNat (n / 65536)).toNat * 65536
      + (UInt8.ofNat (n / 256)).toNat * 256 + (UInt8.ofNat n).toNat = n := by
  simp only [toNat_ofNat]; omega

/-! ## Messages -/

/-- A message in a ring buffer: its flags and its data. -/
abbrev Frame := UInt8 × List UInt8

/-- How a message is kept in a ring buffer. -/
def enc (f : Frame) : List UInt8 := f.1 :: (be16 f.2.length ++ f.2)

theorem enc_length (f : Frame) : (enc f).length = f.2.length + 3 := by
  simp only [enc, List.length_cons, List.length_append, be16_length]; omega

/-- Messages have a length of 1 to 65535. -/
def FrameOk (f : Frame) : Prop := 0 < f.2.length ∧ f.2.length < 65536

/-- A protocol message, :52-141. -/
inductive Msg
  | init
  | newChan (id window : Nat) (service : List UInt8)
  | rsp (remote window id err : Nat)
  | close (remote err : Nat)
  | data (remote ack : Nat) (flags : UInt8) (payload : List UInt8)
deriving Repr, DecidableEq

/-- The bytes of a message. -/
def Msg.bytes : Msg → List UInt8
  | .init => [0x11, 0, 1, 0]
  | .newChan id window service => [0x22, 0] ++ be16 id ++ be32 window ++ be16 service.length ++ service
  | .rsp remote window id err => [0x33, 0] ++ be16 remote ++ be32 window ++ be16 id ++ be16 err
  | .close remote err => [0x42, 0] ++ be16 remote ++ be16 err ++ be16 0
  | .data remote ack flags payload =>
    [0x52, flags] ++ be16 remote ++ be32 ack ++ be16 payload.length ++ payload

/-- The lengths fit in 16 bits. -/
def Msg.Ok : Msg → Prop
  | .newChan _ _ service => service.length < 65536
  | .data _ _ _ payload => payload.length < 65536
  | _ => True

theorem Msg.bytes_pos (m : Msg) : 0 < m.bytes.length := by
  cases m <;> simp [Msg.bytes]

/-! ## A channel that sends -/

/-- The write buffer of a channel: what is left of the message being sent, and the messages `q`. -/
structure ChanTx (c : Chan) (q : List Frame) : Prop where
  ring : ∃ h : List UInt8, h.length = c.curLen ∧ Holds c.wr (h ++ q.flatMap enc)
  ok : ∀ f ∈ q, FrameOk f
  segs : ∀ off len, Seg.ring off len ∈ c.sg → ∀ k < len, ∃ j < c.curLen,
    off + k = (c.wr.pos + j) % c.wr.data.length
  seglen : ∀ s ∈ c.sg, (c.segBytes s).length = s.len ∧ 0 < s.len
  cur : c.sg = [] → c.curLen = 0

theorem ChanTx.idle {c : Chan} {q : List Frame} (h : ChanTx c q) (hs : c.sg = []) :
    Holds c.wr (q.flatMap enc) := by
  obtain ⟨x, hx, hh⟩ := h.ring
  rw [h.cur hs] at hx
  rw [List.length_eq_zero_iff.mp hx] at hh
  exact hh

theorem drop_take_congr {a b : List UInt8} {off len : Nat} (hl : a.length = b.length)
    (h : ∀ k < len, off + k < a.length → a[off + k]? = b[off + k]?) : (a.drop off).take len = (b.drop off).take len := by
  apply List.ext_getElem?
  intro j
  by_cases hj : j < len
  · rw [List.getElem?_take, if_pos hj, List.getElem?_take, if_pos hj, List.getElem?_drop, List.getElem?_drop]
    by_cases hk : off + j < a.length
    · exact h j hj hk
    · rw [List.getElem?_eq_none (by omega), List.getElem?_eq_none (by omega)]
  · rw [List.getElem?_eq_none (by simp only [List.length_take]; omega),
      List.getElem?_eq_none (by simp only [List.length_take]; omega)]

/-- What is left to send does not change when the write buffer keeps the bytes of the message. -/
theorem pend_congr {c c' : Chan} (hh : c'.hdr = c.hdr) (hsv : (∃ o l, Seg.svc o l ∈ c.sg) → c'.service = c.service)
    (hsg : c'.sg = c.sg) (hl : c.wr.data.length = c'.wr.data.length)
    (hr : ∀ off len, Seg.ring off len ∈ c.sg → ∀ k < len, c.wr.data[off + k]? = c'.wr.data[off + k]?) :
    c'.pend = c.pend := by
  rw [Chan.pend, Chan.pend, hsg]
  have : ∀ l : List Seg, (∀ s ∈ l, s ∈ c.sg) → l.flatMap c'.segBytes = l.flatMap c.segBytes := by
    intro l
    induction l with
    | nil => intro _; rfl
    | cons s l ih =>
      intro hm
      rw [List.flatMap_cons, List.flatMap_cons, ih (fun s hs => hm s (List.mem_cons_of_mem _ hs))]
      congr 1
      have hs := hm s (List.mem_cons_self ..)
      cases s with
      | hdr o l => simp only [Chan.segBytes, hh]
      | svc o l => simp only [Chan.segBytes, hsv ⟨o, l, hs⟩]
      | ring o l =>
        simp only [Chan.segBytes]
        exact (drop_take_congr hl (fun k hk _ => hr o l hs k hk)).symm
  exact this c.sg (fun _ h => h)

/-- Adding messages to the write buffer keeps the message being sent. -/
theorem ChanTx.add {c : Chan} {q : List Frame} (h : ChanTx c q) {f : Frame} (hf : FrameOk f) {r : Ring} {x : List UInt8}
    (hx : x.length = c.curLen) (hh : Holds c.wr (x ++ q.flatMap enc)) (hn : Holds r (x ++ q.flatMap enc ++ enc f))
    (hp : r.pos = c.wr.pos) (hl : r.data.length = c.wr.data.length) :
    ChanTx { c with wr := r } (q ++ [f]) ∧ ({ c with wr := r } : Chan).pend = c.pend := by
  refine ⟨⟨⟨x, hx, ?_⟩, ?_, ?_, ?_, h.cur⟩, ?_⟩
  · rw [List.flatMap_append, ← List.append_assoc]
    simpa using hn
  · intro g hg
    rcases List.mem_append.mp hg with hg | hg
    · exact h.ok g hg
    · rw [List.mem_singleton.mp hg]; exact hf
  · intro off len hs k hk
    simp only [hp, hl]
    exact h.segs off len hs k hk
  · intro s hs
    have := h.seglen s hs
    cases s with
    | hdr o l => exact this
    | svc o l => exact this
    | ring o l =>
      simp only [Chan.segBytes, List.length_take, List.length_drop, hl] at this ⊢
      exact this
  · refine pend_congr rfl (fun _ => rfl) rfl hl.symm ?_
    intro off len hs k hk
    obtain ⟨j, hj, e⟩ := h.segs off len hs k hk
    rw [e]
    have hjl : j < (x ++ q.flatMap enc).length := by rw [List.length_append]; omega
    rw [hh.get j hjl]
    have := hn.get j (by rw [List.length_append]; omega)
    simp only [hp, hl] at this
    simp only [this]
    rw [List.getElem_append_left hjl]

/-! ## Moving over what was sent -/

theorem Seg.len_bytes (c : Chan) (s : Seg) (h : (c.segBytes s).length = s.len) (n : Nat) (hn : n ≤ s.len) :
    c.segBytes (s.skip n) = (c.segBytes s).drop n ∧ (c.segBytes (s.skip n)).length = (s.skip n).len := by
  cases s <;>
  · simp only [Chan.segBytes, Seg.skip, Seg.len, List.drop_take, List.drop_drop] at *
    refine ⟨by trivial, ?_⟩
    simp only [List.length_take, List.length_drop] at *
    omega

theorem advance_spec (c : Chan) : ∀ (sg : List Seg) (n : Nat), (∀ s ∈ sg, (c.segBytes s).length = s.len) →
    (∀ s ∈ sg, 0 < s.len) →
    (advance sg n).flatMap c.segBytes = (sg.flatMap c.segBytes).drop n
    ∧ (∀ s ∈ advance sg n, (c.segBytes s).length = s.len)
    ∧ (∀ s ∈ advance sg n, 0 < s.len)
  | [], n, _, _ => by simp [advance]
  | s :: sg, n, h, h0 => by
    have hs := h s (List.mem_cons_self ..)
    have hs0 := h0 s (List.mem_cons_self ..)
    rw [advance]
    by_cases hn : n = 0
    · rw [if_pos hn, hn]
      exact ⟨rfl, h, h0⟩
    · rw [if_neg hn]
      by_cases hl : s.len ≤ n
      · rw [if_pos hl]
        obtain ⟨i1, i2, i3⟩ := advance_spec c sg (n - s.len) (fun s' hs' => h s' (List.mem_cons_of_mem _ hs'))
          (fun s' hs' => h0 s' (List.mem_cons_of_mem _ hs'))
        refine ⟨?_, i2, i3⟩
        rw [i1, List.flatMap_cons, List.drop_append,
          List.drop_eq_nil_of_le (as := c.segBytes s) (by omega), List.nil_append, hs]
      · rw [if_neg hl]
        obtain ⟨j1, j2⟩ := Seg.len_bytes c s hs n (by omega)
        refine ⟨?_, ?_, ?_⟩
        · rw [List.flatMap_cons, List.flatMap_cons, j1, List.drop_append]
          rw [show n - (c.segBytes s).length = 0 by omega, List.drop_zero]
        · intro s' hs'
          rcases List.mem_cons.mp hs' with rfl | hs'
          · exact j2
          · exact h s' (List.mem_cons_of_mem _ hs')
        · intro s' hs'
          rcases List.mem_cons.mp hs' with rfl | hs'
          · cases s <;> simp only [Seg.skip, Seg.len] at * <;> omega
          · exact h0 s' (List.mem_cons_of_mem _ hs')

/-- The entries that are left lie in the same places. -/
theorem advance_ring : ∀ (sg : List Seg) (n off len : Nat), Seg.ring off len ∈ advance sg n →
    ∃ o l, Seg.ring o l ∈ sg ∧ o ≤ off ∧ off + len ≤ o + l
  | [], _, _, _, h => by simp [advance] at h
  | s :: sg, n, off, len, h => by
    rw [advance] at h
    split at h
    · exact ⟨off, len, h, by omega, by omega⟩
    · split at h
      · obtain ⟨o, l, h1, h2, h3⟩ := advance_ring sg _ off len h
        exact ⟨o, l, List.mem_cons_of_mem _ h1, h2, h3⟩
      · rename_i hn hl
        rcases List.mem_cons.mp h with h | h
        · cases s with
          | ring o l =>
            simp only [Seg.skip, Seg.ring.injEq] at h
            simp only [Seg.len] at hl
            exact ⟨o, l, List.mem_cons_self .., by omega, by omega⟩
          | hdr o l => simp [Seg.skip] at h
          | svc o l => simp [Seg.skip] at h
        · exact ⟨off, len, List.mem_cons_of_mem _ h, by omega, by omega⟩

theorem advance_svc : ∀ (sg : List Seg) (n off len : Nat), Seg.svc off len ∈ advance sg n → ∃ o l, Seg.svc o l ∈ sg
  | [], _, _, _, h => by simp [advance] at h
  | s :: sg, n, off, len, h => by
    rw [advance] at h
    split at h
    · exact ⟨off, len, h⟩
    · split at h
      · obtain ⟨o, l, h1⟩ := advance_svc sg _ off len h
        exact ⟨o, l, List.mem_cons_of_mem _ h1⟩
      · rcases List.mem_cons.mp h with h | h
        · cases s with
          | ring o l => simp [Seg.skip] at h
          | hdr o l => simp [Seg.skip] at h
          | svc o l => exact ⟨o, l, List.mem_cons_self ..⟩
        · exact ⟨off, len, List.mem_cons_of_mem _ h⟩

end Gensio.Mux
