import Verif.Model.Ratelimit
/-!
# C36: rate limiter
-/
namespace Gensio.Ratelimit

theorem gather_spec (c : Cfg) (sg : List (List UInt8)) : ∀ buf : List UInt8, buf.length ≤ c.len →
    gather c buf sg = some (buf ++ sg.flatten.take (c.len - buf.length)) := by
  induction sg with
  | nil => intro buf _; simp [gather]
  | cons x sg ih =>
    intro buf h
    rw [gather]
    by_cases hl : buf.length < c.len
    · rw [if_pos hl]
      simp only []
      by_cases hx : x.length > c.len - buf.length
      · rw [if_pos hx, if_pos (by omega), ih _ (by simp; omega)]
        have h0 : c.len - (buf ++ x.take (c.len - buf.length)).length = 0 := by simp; omega
        rw [h0, List.flatten_cons, List.take_append_of_le_length (by omega)]
        simp
      · rw [if_neg hx, if_pos (by omega), List.take_of_length_le (Nat.le_refl _), ih _ (by simp; omega), List.flatten_cons,
          List.take_append, List.take_of_length_le (by omega : x.length ≤ c.len - buf.length)]
        simp [Nat.sub_sub]
    · rw [if_neg hl]
      have : c.len - buf.length = 0 := by omega
      simp [this]

/-- What can happen, with the time since the last event. -/
inductive Ev where
  /-- The user writes. -/
  | write (sg : List (List UInt8)) (sink : Option Nat) (dt : Nat)
  /-- The timer goes off; nothing if no timer is running or it has not expired yet. -/
  | tick (dt : Nat)

/-- The layer with the time, what was sent when, and what was reported as taken. -/
structure Log where
  s : St
  now : Nat := 0
  sent : List (Nat × List UInt8) := []
  took : List UInt8 := []

def Log.step (c : Cfg) (l : Log) : Ev → Option Log
  | .write sg sink dt => do
    let now := l.now + dt
    let (s, n, out) ← ulWrite c l.s sg sink now
    some { s, now, sent := l.sent ++ (if out = [] then [] else [(now, out)]), took := l.took ++ sg.flatten.take (n.getD 0) }
  | .tick dt =>
    let now := l.now + dt
    match l.s.timer with
    | some t => some (if t ≤ now then { l with s := timeout l.s, now } else { l with now })
    | none => some { l with now }

def Log.run (c : Cfg) (l : Log) (evs : List Ev) : Option Log := evs.foldlM (Log.step c) l

/-- A connected layer. -/
def start : Log := { s := connect {} }

/-- Any two sends are at least `delay` apart, and none is more than `len` bytes. -/
def Spaced (c : Cfg) (l : List (Nat × List UInt8)) : Prop :=
  l.Pairwise (fun a b => a.1 + c.delay ≤ b.1) ∧ ∀ x ∈ l, x.2.length ≤ c.len

structure Inv (c : Cfg) (l : Log) : Prop where
  spaced : Spaced c l.sent
  data : (l.sent.map Prod.snd).flatten = l.took
  past : ∀ x ∈ l.sent, x.1 ≤ l.now
  ready : l.s.ready = true → ∀ x ∈ l.sent, x.1 + c.delay ≤ l.now
  timer : l.s.ready = false → ∃ t, l.s.timer = some t ∧ (∀ x ∈ l.sent, x.1 + c.delay ≤ t) ∧ t ≤ l.now + c.delay

theorem step_inv (c : Cfg) (l : Log) (h : Inv c l) (e : Ev) : ∃ l', l.step c e = some l' ∧ Inv c l' := by
  cases e with
  | tick dt =>
    simp only [Log.step]
    have hpast : ∀ x ∈ l.sent, x.1 ≤ l.now + dt := fun x hx => Nat.le_trans (h.past x hx) (by omega)
    have hid : Inv c { l with now := l.now + dt } := by
      refine ⟨h.spaced, h.data, hpast, fun hr x hx => Nat.le_trans (h.ready hr x hx) (by simp), fun hr => ?_⟩
      obtain ⟨t, h1, h2, h3⟩ := h.timer hr
      exact ⟨t, h1, h2, by simp only; omega⟩
    cases ht : l.s.timer with
    | none => exact ⟨_, rfl, hid⟩
    | some t =>
      simp only []
      by_cases hle : t ≤ l.now + dt
      · rw [if_pos hle]
        refine ⟨_, rfl, ⟨h.spaced, h.data, hpast, fun _ x hx => ?_, by simp [timeout]⟩⟩
        by_cases hr : l.s.ready = true
        · exact Nat.le_trans (h.ready hr x hx) (by simp)
        · obtain ⟨t', h1, h2, _⟩ := h.timer (by simpa using hr)
          rw [ht] at h1
          obtain rfl := Option.some.inj h1
          exact Nat.le_trans (h2 x hx) hle
      · rw [if_neg hle]; exact ⟨_, rfl, hid⟩
  | write sg sink dt =>
    have hpast : ∀ x ∈ l.sent, x.1 ≤ l.now + dt := fun x hx => Nat.le_trans (h.past x hx) (by omega)
    simp only [Log.step, ulWrite]
    by_cases hr : l.s.ready = true
    · simp only [hr, Bool.not_true, Bool.false_eq_true, if_false, gather_spec c sg [] (by simp), Option.bind_eq_bind,
        Option.bind_some, List.nil_append, List.length_nil, Nat.sub_zero]
      have hready : ∀ x ∈ l.sent, x.1 + c.delay ≤ l.now + dt := fun x hx => Nat.le_trans (h.ready hr x hx) (by omega)
      cases sink with
      | none =>
        refine ⟨_, rfl, ?_⟩
        simp only [Option.getD_none, List.take_zero, List.append_nil, if_true]
        exact ⟨h.spaced, h.data, hpast, fun _ => hready, fun h' => by simp [hr] at h'⟩
      | some k =>
        simp only []
        by_cases hk : min k (sg.flatten.take c.len).length > 0
        · rw [if_pos hk]
          refine ⟨_, rfl, ?_⟩
          have hne : List.take (min k (sg.flatten.take c.len).length) (sg.flatten.take c.len) ≠ [] := by
            intro h0
            have := congrArg List.length h0
            rw [List.length_take] at this
            simp only [List.length_nil] at this
            omega
          simp only [if_neg hne, Option.getD_some]
          have htake : List.take (min k (sg.flatten.take c.len).length) (sg.flatten.take c.len) =
              sg.flatten.take (min k (sg.flatten.take c.len).length) := by
            rw [List.take_take, Nat.min_eq_left (by simp; omega)]
          refine ⟨⟨?_, ?_⟩, ?_, ?_, by simp, ?_⟩
          · rw [List.pairwise_append]
            refine ⟨h.spaced.1, by simp, ?_⟩
            intro a ha b hb
            simp only [List.mem_singleton] at hb
            subst hb
            exact hready a ha
          · intro x hx
            rcases List.mem_append.mp hx with hx | hx
            · exact h.spaced.2 x hx
            · simp only [List.mem_singleton] at hx
              subst hx
              simp; omega
          · simp only [List.map_append, List.flatten_append, h.data, List.map_cons, List.map_nil, List.flatten_cons,
              List.flatten_nil, List.append_nil, htake]
          · intro x hx
            rcases List.mem_append.mp hx with hx | hx
            · exact hpast x hx
            · simp only [List.mem_singleton] at hx
              subst hx; exact Nat.le_refl _
          · intro _
            refine ⟨_, rfl, ?_, Nat.le_refl _⟩
            intro x hx
            rcases List.mem_append.mp hx with hx | hx
            · have := hready x hx; omega
            · simp only [List.mem_singleton] at hx
              subst hx; exact Nat.le_refl _
        · rw [if_neg hk]
          have h0 : min k (sg.flatten.take c.len).length = 0 := by omega
          refine ⟨_, rfl, ?_⟩
          simp only [h0, Option.getD_some, List.take_zero, List.append_nil, if_true]
          exact ⟨h.spaced, h.data, hpast, fun _ => hready, fun h' => by simp [hr] at h'⟩
    · have hr : l.s.ready = false := by simpa using hr
      simp only [hr, Bool.not_false, if_true, Option.bind_eq_bind, Option.bind_some, Option.getD_some, List.take_zero,
        List.append_nil]
      refine ⟨_, rfl, ⟨h.spaced, h.data, hpast, fun h' => by simp [hr] at h', fun _ => ?_⟩⟩
      obtain ⟨t, h1, h2, h3⟩ := h.timer hr
      exact ⟨t, h1, h2, by simp only; omega⟩

/-- **C36.**  For every configuration and every history of writes, lower layer answers and timer
expiries on a connected layer: nothing is copied outside the buffer; sends are at most `xmit_len`
bytes and at least `xmit_delay` apart; what was sent is exactly what the writes reported as taken, in
order; and when writing is not possible a timer is running that ends within `xmit_delay`, whose
expiry makes writing possible.  Missing: closing and reopening, see `C36_reopen_violated`. -/
theorem C36_rate_partial (c : Cfg) (evs : List Ev) :
    ∃ l, Log.run c start evs = some l ∧ Spaced c l.sent ∧ (l.sent.map Prod.snd).flatten = l.took ∧
      (l.s.ready = true ∨ ∃ t, l.s.timer = some t ∧ t ≤ l.now + c.delay ∧
        ∀ dt, t ≤ l.now + dt → (l.step c (.tick dt)).map (fun l => l.s.ready) = some true) := by
  have key : ∀ (evs : List Ev) (l : Log), Inv c l → ∃ l', Log.run c l evs = some l' ∧ Inv c l' := by
    intro evs
    induction evs with
    | nil => intro l h; exact ⟨l, rfl, h⟩
    | cons e evs ih =>
      intro l h
      obtain ⟨l1, e1, h1⟩ := step_inv c l h e
      obtain ⟨l2, e2, h2⟩ := ih l1 h1
      exact ⟨l2, by simp only [Log.run, List.foldlM_cons, e1, Option.bind_eq_bind, Option.bind_some]; exact e2, h2⟩
  obtain ⟨l, e, h⟩ := key evs start ⟨⟨by simp [start], by simp [start]⟩, by simp [start], by simp [start],
    by simp [start], by simp [start, connect]⟩
  refine ⟨l, e, h.spaced, h.data, ?_⟩
  by_cases hr : l.s.ready = true
  · exact Or.inl hr
  · obtain ⟨t, h1, _, h3⟩ := h.timer (by simpa using hr)
    refine Or.inr ⟨t, h1, h3, fun dt hd => ?_⟩
    simp [Log.step, h1, hd, timeout]

/-- 5 bytes at 2 per 100: three sends, 100 apart; the write in between takes nothing. -/
example : (Log.run ⟨2, 100⟩ start [.write [[1], [2, 3, 4, 5]] (some 9) 0, .write [[3, 4, 5]] (some 9) 50, .tick 50,
    .write [[3, 4, 5]] (some 9) 0, .tick 100, .write [[5]] (some 9) 7]).map (fun l => (l.sent, l.took)) =
    some ([(0, [1, 2]), (100, [3, 4]), (207, [5])], [1, 2, 3, 4, 5]) := by decide +kernel

/-- **C36 violated.**  Opening again makes the layer ready at once, whatever the time of the last
send: two sends of `xmit_len` bytes at the same time. -/
theorem C36_reopen_violated (c : Cfg) (hl : 0 < c.len) (s : St) (hs : s.ready = true) (d1 d2 : List UInt8)
    (h1 : d1.length = c.len) (h2 : d2.length = c.len) (now : Nat) :
    ∃ s1 s2, ulWrite c s [d1] (some c.len) now = some (s1, some c.len, d1) ∧
      ulWrite c (connect s1) [d2] (some c.len) now = some (s2, some c.len, d2) := by
  have key : ∀ (s : St) (d : List UInt8), s.ready = true → d.length = c.len →
      ulWrite c s [d] (some c.len) now = some ({ ready := false, timer := some (now + c.delay) }, some c.len, d) := by
    intro s d hs hd
    have ht : List.take c.len d = d := List.take_of_length_le (by omega)
    simp [ulWrite, hs, gather_spec c [d] [] (by simp), ht, hd, hl]
  exact ⟨_, _, key s d1 hs h1, key _ d2 rfl h2⟩

/-- **C36 violated.**  `xmit_len=0` is accepted and then no byte is ever sent, whatever is written. -/
theorem C36_zero_len_violated (delay : Nat) (hd : delay ≠ 0) (s : St) (sg : List (List UInt8)) (sink : Option Nat) (now : Nat) :
    ∃ c, Cfg.make 0 delay = some c ∧ ∃ n, ulWrite c s sg sink now = some (s, n, []) := by
  refine ⟨⟨0, delay⟩, by simp [Cfg.make, hd], ?_⟩
  simp only [ulWrite, gather_spec ⟨0, delay⟩ sg [] (by simp)]
  cases s.ready <;> cases sink <;> simp

end Gensio.Ratelimit
