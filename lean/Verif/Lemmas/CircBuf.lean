import Verif.Model.CircBuf
import Verif.Lemmas.Mem
/-! Helper lemmas for the circular buffer. -/
namespace Gensio.CircBuf

theorem mod_small {a n : Nat} (_ : 0 < n) (h : a < 2 * n) :
    a % n = if a < n then a else a - n := by
  split
  · exact Nat.mod_eq_of_lt (by assumption)
  · rw [Nat.mod_eq_sub_mod (by omega), Nat.mod_eq_of_lt (by omega)]

theorem mod_cases {a n : Nat} (h : a < 2 * n) :
    (a < n ∧ a % n = a) ∨ (n ≤ a ∧ a % n = a - n) := by
  by_cases h1 : a < n
  · exact Or.inl ⟨h1, Nat.mod_eq_of_lt h1⟩
  · exact Or.inr ⟨by omega, by rw [Nat.mod_eq_sub_mod (by omega), Nat.mod_eq_of_lt (by omega)]⟩

/-- The concrete buffer `c` stores the queue `q`. -/
structure Rep (c : CB) (q : List UInt8) : Prop where
  cap_pos : 0 < c.bufsize
  mem_len : c.cbuf.length = c.bufsize
  pos_lt : c.pos < c.bufsize
  size_le : c.size ≤ c.bufsize
  len : q.length = c.size
  get : ∀ i, i < c.size → q[i]? = c.cbuf[(c.pos + i) % c.bufsize]?

theorem rep_alloc {n : Nat} (h : 0 < n) : Rep (alloc n) [] :=
  ⟨h, by simp [alloc], h, by simp [alloc], by simp [alloc], by simp [alloc]⟩

theorem rep_reset {c q} (h : Rep c q) : Rep (reset c) [] :=
  ⟨h.cap_pos, h.mem_len, h.cap_pos, by simp [reset], by simp [reset], by simp [reset]⟩

theorem nextWriteArea_spec {c q} (h : Rep c q) :
    ∃ off sz, nextWriteArea c = some (off, sz) ∧ off = (c.pos + c.size) % c.bufsize ∧
      off + sz ≤ c.bufsize ∧ sz ≤ c.bufsize - c.size ∧ (c.size < c.bufsize → 0 < sz) := by
  have h1 := h.cap_pos; have h2 := h.pos_lt; have h3 := h.size_le
  have hm := mod_small (a := c.pos + c.size) h1 (by omega)
  unfold nextWriteArea
  rw [if_neg (by omega)]
  refine ⟨(c.pos + c.size) % c.bufsize, ?_⟩
  rw [hm]
  simp only [true_and]
  by_cases h5 : c.size = c.bufsize
  · refine ⟨0, by simp [h5], ?_⟩
    split <;> omega
  · rw [if_neg h5]
    by_cases h6 : c.pos + c.size < c.bufsize
    · simp only [if_pos h6]
      refine ⟨c.bufsize - (c.pos + c.size), ?_, ?_⟩
      · rw [if_pos (by omega)]
      · omega
    · simp only [if_neg h6]
      refine ⟨c.pos - (c.pos + c.size - c.bufsize), ?_, ?_⟩
      · rw [if_neg (by omega)]
      · omega

/-- Storing `d` in the write area and announcing it appends `d` to the queue. -/
theorem put_spec {c q} (h : Rep c q) {off sz : Nat} (ha : nextWriteArea c = some (off, sz))
    (d : List UInt8) (hd : d.length ≤ sz) :
    ∃ m c', c.cbuf.write off d = some m ∧ dataAdded { c with cbuf := m } d.length = some c' ∧
      Rep c' (q ++ d) ∧ c'.bufsize = c.bufsize ∧ c'.size = c.size + d.length := by
  obtain ⟨off', sz', e, ho, h1, h2, -⟩ := nextWriteArea_spec h
  rw [e] at ha; simp at ha; obtain ⟨rfl, rfl⟩ := ha
  have hml := h.mem_len; have hcp := h.cap_pos; have hpl := h.pos_lt; have hsl := h.size_le
  have hw : off' + d.length ≤ c.cbuf.length := by omega
  have hwe := Mem.write_eq (m := c.cbuf) (d := d) hw
  refine ⟨_, { c with cbuf := c.cbuf.take off' ++ d ++ c.cbuf.drop (off' + d.length),
                      size := c.size + d.length }, hwe, ?_, ?_, rfl, rfl⟩
  · unfold dataAdded; rw [if_pos (by simp; omega)]
  · refine ⟨hcp, (Mem.write_length hwe).trans hml, hpl, by simp; omega, by simp [h.len], ?_⟩
    intro i hi
    simp only at hi ⊢
    rw [Mem.write_get hwe]
    have hme := mod_cases (a := c.pos + c.size) (n := c.bufsize) (by omega)
    have hmi := mod_cases (a := c.pos + i) (n := c.bufsize) (by omega)
    by_cases hlt : i < c.size
    · rw [List.getElem?_append_left (by rw [h.len]; exact hlt), h.get i hlt]
      rw [if_neg (by omega)]
    · rw [List.getElem?_append_right (by rw [h.len]; omega), h.len]
      rw [if_pos (by omega)]
      congr 1
      omega

theorem writeLoop_spec (fuel : Nat) : ∀ {c q} (_ : Rep c q) (buf : List UInt8) (count : Nat),
    buf.length < fuel →
    ∃ c', writeLoop fuel c buf count =
        some (c', count + min buf.length (c.bufsize - c.size)) ∧
      Rep c' (q ++ buf.take (c.bufsize - c.size)) ∧ c'.bufsize = c.bufsize ∧
      c'.size = c.size + min buf.length (c.bufsize - c.size) := by
  induction fuel with
  | zero => intro c q _ buf count h; omega
  | succ fuel ih =>
    intro c q h buf count hf
    unfold writeLoop
    by_cases hc : roomLeft c ≠ 0 ∧ buf.length > 0
    · rw [if_pos hc]
      unfold roomLeft at hc
      obtain ⟨off, sz, e, ho, h1, h2, h3⟩ := nextWriteArea_spec h
      have hsz := h3 (by omega)
      have hsl := h.size_le
      rw [e]
      simp only [Option.bind_eq_bind, Option.bind_some]
      generalize hk : (if sz > buf.length then buf.length else sz) = k
      have hkk : k = min buf.length sz := by rw [← hk]; split <;> omega
      have htl : (buf.take k).length = k := by simp; omega
      obtain ⟨m, c1, hw, hd, hr, hb, hs⟩ := put_spec h e (buf.take k) (by omega)
      rw [hw]; simp only [Option.bind_some]
      rw [htl] at hd hs
      rw [hd]; simp only [Option.bind_some]
      obtain ⟨c2, e2, r2, b2, s2⟩ := ih hr (buf.drop k) (count + k) (by simp; omega)
      refine ⟨c2, ?_, ?_, by omega, ?_⟩
      · rw [e2]; simp only [List.length_drop]; congr 2; omega
      · rw [hb, hs, List.append_assoc] at r2
        have : c.bufsize - c.size = k + (c.bufsize - (c.size + k)) := by omega
        rw [this, List.take_add]; exact r2
      · rw [s2, hs, hb]; simp only [List.length_drop]; omega
    · rw [if_neg hc]
      unfold roomLeft at hc
      have hm : min buf.length (c.bufsize - c.size) = 0 := by omega
      refine ⟨c, by rw [hm]; rfl, ?_, rfl, by omega⟩
      have : buf.take (c.bufsize - c.size) = [] := by
        rw [← List.length_eq_zero_iff, List.length_take]; omega
      rw [this]; simpa using h

theorem sgWrite_spec (sg : List (List UInt8)) : ∀ {c q} (_ : Rep c q) (count : Nat),
    ∃ c', sgWrite c sg count =
        some (c', count + min sg.flatten.length (c.bufsize - c.size)) ∧
      Rep c' (q ++ sg.flatten.take (c.bufsize - c.size)) ∧ c'.bufsize = c.bufsize := by
  induction sg with
  | nil => intro c q h count; exact ⟨c, by simp [sgWrite], by simpa using h, rfl⟩
  | cons buf sg ih =>
    intro c q h count
    unfold sgWrite
    by_cases hr : roomLeft c > 0
    · rw [if_pos hr]
      obtain ⟨c1, e1, r1, b1, s1⟩ := writeLoop_spec (buf.length + 1) h buf count (by omega)
      rw [e1]; simp only [Option.bind_eq_bind, Option.bind_some]
      obtain ⟨c2, e2, r2, b2⟩ := ih r1 (count + min buf.length (c.bufsize - c.size))
      refine ⟨c2, ?_, ?_, by omega⟩
      · rw [e2, b1, s1]; simp only [List.flatten_cons, List.length_append]; congr 2; omega
      · rw [b1, s1, List.append_assoc] at r2
        rw [List.flatten_cons, List.take_append]
        have : c.bufsize - c.size - buf.length =
          c.bufsize - (c.size + min buf.length (c.bufsize - c.size)) := by omega
        rw [this]; exact r2
    · rw [if_neg hr]
      unfold roomLeft at hr
      have : c.bufsize - c.size = 0 := by omega
      exact ⟨c, by rw [this]; simp, by rw [this]; simpa using h, rfl⟩

theorem nextReadArea_spec {c q} (h : Rep c q) :
    ∃ sz, nextReadArea c = some (c.pos, sz) ∧ c.pos + sz ≤ c.bufsize ∧ sz ≤ c.size ∧
      (0 < c.size → 0 < sz) := by
  have h1 := h.cap_pos; have h2 := h.pos_lt; have h3 := h.size_le
  have hm := mod_small (a := c.pos + c.size) h1 (by omega)
  unfold nextReadArea
  rw [if_neg (by omega)]
  simp only
  rw [hm]
  by_cases h5 : c.size = 0
  · exact ⟨0, by simp [h5], by omega, by omega, by omega⟩
  · rw [if_neg h5]
    by_cases h6 : c.pos + c.size < c.bufsize
    · simp only [if_pos h6]
      refine ⟨c.size, ?_, by omega⟩
      rw [if_pos (by omega)]
    · simp only [if_neg h6]
      refine ⟨c.bufsize - c.pos, ?_, by omega⟩
      rw [if_neg (by omega)]

/-- Taking `k` bytes from the read area and announcing it removes them from the queue. -/
theorem get_spec {c q} (h : Rep c q) {off sz : Nat} (ha : nextReadArea c = some (off, sz))
    (k : Nat) (hk : k ≤ sz) :
    ∃ c', c.cbuf.read off k = some (q.take k) ∧ dataRemoved c k = some c' ∧
      Rep c' (q.drop k) ∧ c'.bufsize = c.bufsize ∧ c'.size = c.size - k := by
  obtain ⟨sz', e, h1, h2, -⟩ := nextReadArea_spec h
  rw [e] at ha; simp at ha; obtain ⟨rfl, rfl⟩ := ha
  have hml := h.mem_len; have hcp := h.cap_pos; have hpl := h.pos_lt; have hsl := h.size_le
  have hr := Mem.read_eq (m := c.cbuf) (off := c.pos) (n := k) (by omega)
  refine ⟨{ c with size := c.size - k, pos := (c.pos + k) % c.bufsize }, ?_, ?_, ?_, rfl, rfl⟩
  · rw [hr]; congr 1
    apply List.ext_getElem?
    intro i
    rw [List.getElem?_take, List.getElem?_take]
    split
    · rw [h.get i (by omega), List.getElem?_drop, Nat.mod_eq_of_lt (by omega)]
    · rfl
  · unfold dataRemoved; rw [if_pos (by omega), if_neg (by omega)]
  · refine ⟨hcp, hml, Nat.mod_lt _ hcp, by simp; omega, by simp [h.len], ?_⟩
    intro i hi
    simp only at hi ⊢
    rw [List.getElem?_drop, h.get _ (by omega), Nat.mod_add_mod, Nat.add_assoc]

theorem readLoop_spec (fuel : Nat) : ∀ {c q} (_ : Rep c q) (n : Nat) (out : List UInt8)
    (count : Nat), n < fuel →
    ∃ c', readLoop fuel c n out count =
        some (c', out ++ q.take n, count + min n q.length) ∧
      Rep c' (q.drop n) ∧ c'.bufsize = c.bufsize := by
  induction fuel with
  | zero => intro c q _ n out count h; omega
  | succ fuel ih =>
    intro c q h n out count hf
    have hl := h.len
    unfold readLoop
    by_cases hc : n > 0 ∧ datalen c ≠ 0
    · rw [if_pos hc]
      unfold datalen at hc
      obtain ⟨sz, e, h1, h2, h3⟩ := nextReadArea_spec h
      have hsz := h3 (by omega)
      rw [e]
      simp only [Option.bind_eq_bind, Option.bind_some]
      generalize hk : (if sz > n then n else sz) = k
      have hkk : k = min n sz := by rw [← hk]; split <;> omega
      obtain ⟨c1, hrd, hd, hr, hb, hs⟩ := get_spec h e k (by omega)
      rw [hrd]; simp only [Option.bind_some]
      rw [hd]; simp only [Option.bind_some]
      obtain ⟨c2, e2, r2, b2⟩ := ih hr (n - k) (out ++ q.take k) (count + k) (by omega)
      refine ⟨c2, ?_, ?_, by omega⟩
      · rw [e2, List.append_assoc, List.length_drop]
        rw [← List.take_add, show k + (n - k) = n by omega]
        congr 3; omega
      · rw [List.drop_drop, show k + (n - k) = n by omega] at r2; exact r2
    · rw [if_neg hc]
      unfold datalen at hc
      refine ⟨c, ?_, ?_, rfl⟩
      · have : min n q.length = 0 := by omega
        have h2 : q.take n = [] := by rw [← List.length_eq_zero_iff, List.length_take]; omega
        rw [this, h2]; simp
      · have : q.drop n = q := by
          rcases Nat.eq_zero_or_pos n with rfl | hn
          · rfl
          · have : q = [] := by rw [← List.length_eq_zero_iff]; omega
            subst this; simp
        rw [this]; exact h

end Gensio.CircBuf
