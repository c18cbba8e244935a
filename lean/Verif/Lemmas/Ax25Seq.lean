import Verif.Model.Ax25

namespace Gensio.Ax25

theorem subSeq_lt (a b w : Nat) (hb : b < 256) : subSeq a b w < 256 := by
  unfold subSeq u8; split <;> omega

theorem subSeq_mod {a b w : Nat} (hw : w ≤ 128) (ha : a < w) (hb : b < w) : subSeq a b w = (a + w - b) % w := by
  unfold subSeq u8
  split
  · rw [Nat.mod_eq_of_lt (a := a + w - b) (by omega)]; omega
  · have : a + w - b = (a - b) + w := by omega
    rw [this, Nat.add_mod_right, Nat.mod_eq_of_lt (a := a - b) (b := w) (by omega)]; omega

theorem addSeq_mod {a n w : Nat} (hw : w ≤ 128) (ha : a < w) (hn : n ≤ w) : addSeq a n w = (a + n) % w := by
  unfold addSeq u8
  dsimp only
  have e : (n + a) % 256 = n + a ∨ n + a = 256 := by omega
  rcases Nat.lt_or_ge (a + n) w with h | h
  · rw [Nat.mod_eq_of_lt h]; split <;> omega
  · have : (a + n) % w = a + n - w := by
      rw [Nat.mod_eq_sub_mod h, Nat.mod_eq_of_lt (by omega)]
    rw [this]; split <;> omega

theorem seqInRange_iff {s e v m : Nat} (hs : s < m) (he : e < m) (hv : v < m) :
    seqInRange s e v = true ↔ (v + m - s) % m ≤ (e + m - s) % m := by
  unfold seqInRange
  have key : ∀ x, x < m → (x + m - s) % m = if x ≥ s then x - s else x + m - s := by
    intro x hx
    split
    · have : x + m - s = (x - s) + m := by omega
      rw [this, Nat.add_mod_right, Nat.mod_eq_of_lt (by omega)]
    · rw [Nat.mod_eq_of_lt (by omega)]
  rw [key v hv, key e he]
  split
  · rename_i h; subst h; simp; split <;> omega
  · split
    · simp; split <;> split <;> omega
    · simp; split <;> split <;> omega

theorem nr_sum {vs wl m nr : Nat} (hvs : vs < 256) (hwl : wl ≤ 127) (hm : m = 8 ∨ m = 128) (hnr : nr < m)
    (h : seqInRange (subSeq vs wl m) vs nr = true) :
    subSeq nr (subSeq vs wl m) m + subSeq vs nr m ≤ wl := by
  rcases hm with rfl | rfl
  all_goals
    unfold seqInRange at h
    unfold subSeq u8 at *
    split at h <;> split at h <;> (try split at h) <;> simp at h <;> (repeat' split) <;> omega

/-- For any peer: how far an accepted N(R) moves the window. -/
theorem nr_bounds {vs wl m nr : Nat} (hvs : vs < 256) (hwl : wl ≤ 127) (hm : m = 8 ∨ m = 128) (hnr : nr < m)
    (h : seqInRange (subSeq vs wl m) vs nr = true) :
    subSeq nr (subSeq vs wl m) m ≤ wl ∧ subSeq vs nr m ≤ wl := by
  rcases hm with rfl | rfl
  all_goals
    unfold seqInRange at h
    unfold subSeq u8 at *
    split at h <;> split at h <;> (try split at h) <;> simp at h <;> (constructor <;> (repeat' split) <;> omega)

theorem mod_diff {a d m : Nat} (hd : d < m) : ((a + d) % m + m - a % m) % m = d := by
  have hm : 0 < m := by omega
  have hr := Nat.mod_lt a hm
  have e : (a + d) % m = (a % m + d) % m := by rw [Nat.add_mod, Nat.mod_eq_of_lt hd]
  rw [e]
  rcases Nat.lt_or_ge (a % m + d) m with h | h
  · rw [Nat.mod_eq_of_lt h]
    have : a % m + d + m - a % m = d + m := by omega
    rw [this, Nat.add_mod_right, Nat.mod_eq_of_lt hd]
  · have e2 : (a % m + d) % m = a % m + d - m := by rw [Nat.mod_eq_sub_mod h, Nat.mod_eq_of_lt (by omega)]
    rw [e2]
    have : a % m + d - m + m - a % m = d := by omega
    rw [this, Nat.mod_eq_of_lt hd]

theorem mod_back {a d m : Nat} (hd : d < m) : ((a + d) % m + m - d) % m = a % m := by
  have hm : 0 < m := by omega
  have hr := Nat.mod_lt a hm
  have e : (a + d) % m = (a % m + d) % m := by rw [Nat.add_mod, Nat.mod_eq_of_lt hd]
  rw [e]
  rcases Nat.lt_or_ge (a % m + d) m with h | h
  · rw [Nat.mod_eq_of_lt h]
    have : a % m + d + m - d = a % m + m := by omega
    rw [this, Nat.add_mod_right, Nat.mod_mod]
  · have e2 : (a % m + d) % m = a % m + d - m := by rw [Nat.mod_eq_sub_mod h, Nat.mod_eq_of_lt (by omega)]
    rw [e2]
    have : a % m + d - m + m - d = a % m := by omega
    rw [this, Nat.mod_mod]

/-- Between stations that agree: an N(R) that stands for `a` is in range, moves the window to `a`, and is `S - a` before `vs`. -/
theorem nr_exact {S F a m wl : Nat} (hm : m ≤ 128) (hwl : wl < m) (hF : F + wl = S) (h1 : F ≤ a) (h2 : a ≤ S) :
    seqInRange (subSeq (S % m) wl m) (S % m) (a % m) = true ∧
    subSeq (a % m) (subSeq (S % m) wl m) m = a - F ∧ subSeq (S % m) (a % m) m = S - a := by
  have hm0 : 0 < m := by omega
  have hvs := Nat.mod_lt S hm0
  have hfirst : subSeq (S % m) wl m = F % m := by
    rw [subSeq_mod hm hvs hwl, ← hF, mod_back hwl]
  obtain ⟨d, rfl⟩ : ∃ d, a = F + d := ⟨a - F, by omega⟩
  obtain ⟨e, he⟩ : ∃ e, S = F + d + e := ⟨S - (F + d), by omega⟩
  have hw : wl = d + e := by omega
  rw [hfirst]
  refine ⟨?_, ?_, ?_⟩
  · rw [seqInRange_iff (Nat.mod_lt _ hm0) hvs (Nat.mod_lt _ hm0), mod_diff (by omega)]
    rw [show S = F + (d + e) by omega, mod_diff (by omega)]; omega
  · rw [subSeq_mod hm (Nat.mod_lt _ hm0) (Nat.mod_lt _ hm0), mod_diff (by omega)]; omega
  · rw [subSeq_mod hm hvs (Nat.mod_lt _ hm0), he, mod_diff (by omega)]; omega

/-- Two counts less than a modulus apart with the same sequence number are the same. -/
theorem mod_inj {a b m : Nat} (h : a % m = b % m) (h1 : a < b + m) (h2 : b < a + m) : a = b := by
  rcases Nat.le_total a b with hl | hl
  · have := mod_diff (a := a) (d := b - a) (m := m) (by omega)
    rw [show a + (b - a) = b by omega, h] at this
    have hm : 0 < m := by omega
    have := Nat.mod_lt b hm
    rw [show b % m + m - b % m = m by omega, Nat.mod_self] at *
    omega
  · have := mod_diff (a := b) (d := a - b) (m := m) (by omega)
    rw [show b + (a - b) = a by omega, ← h] at this
    have hm : 0 < m := by omega
    have := Nat.mod_lt a hm
    rw [show a % m + m - a % m = m by omega, Nat.mod_self] at *
    omega

end Gensio.Ax25
