import Verif.Model.Chardelay
/-!
# C37, C58: character delay
-/
namespace Gensio.Chardelay

/-- Fields the scan leaves alone. -/
theorem scanLoop_same (c : Cfg) (buf : List UInt8) (n : Nat) : ∀ (j : Nat) (s s' : St), scanLoop c buf j s n = some s' →
    s'.wb = s.wb ∧ s'.firstIn = s.firstIn ∧ s'.inClose = s.inClose ∧ s'.maxEnd = s.maxEnd := by
  induction n with
  | zero => intro j s s' h; simp [scanLoop] at h; subst h; simp
  | succ n ih =>
    intro j s s' h
    rw [scanLoop] at h
    by_cases hc : c.sendon = []
    · rw [if_pos hc] at h; exact ih _ _ _ h
    · rw [if_neg hc] at h
      cases hb : buf[j]? with
      | none => simp [hb] at h
      | some b =>
        simp only [hb, Option.bind_eq_bind, Option.bind_eq_some_iff] at h
        obtain ⟨⟨ps, m⟩, _, h2⟩ := h
        have := ih _ _ _ h2
        exact this

theorem scanLoop_empty (c : Cfg) (hc : c.sendon = []) (buf : List UInt8) (n : Nat) : ∀ (j : Nat) (s : St),
    scanLoop c buf j s n = some s := by
  induction n with
  | zero => intro j s; rfl
  | succ n ih => intro j s; rw [scanLoop, if_pos hc]; exact ih _ _

theorem copyIn_spec (c : Cfg) (sg : List (List UInt8)) : ∀ (s s' : St) (n n' : Nat), s.wb.length ≤ c.len →
    copyIn c s n sg = some (s', n') →
    s'.wb = s.wb ++ sg.flatten.take (c.len - s.wb.length) ∧ n' = n + (sg.flatten.take (c.len - s.wb.length)).length ∧
      s'.firstIn = s.firstIn ∧ s'.inClose = s.inClose ∧ s'.maxEnd = s.maxEnd := by
  induction sg with
  | nil => intro s s' n n' _ h; simp [copyIn] at h; obtain ⟨rfl, rfl⟩ := h; simp
  | cons x sg ih =>
    intro s s' n n' hl h
    rw [copyIn] at h
    by_cases hlt : s.wb.length < c.len
    · rw [if_pos hlt] at h
      simp only [Option.bind_eq_bind, Option.bind_eq_some_iff] at h
      obtain ⟨s1, h1, h2⟩ := h
      obtain ⟨a1, a2, a3, a4⟩ := scanLoop_same _ _ _ _ _ _ h1
      by_cases hx : x.length > c.len - s.wb.length
      · rw [if_pos hx] at h2
        have hlen : (s1.wb ++ x.take (c.len - s.wb.length)).length = c.len := by rw [a1]; simp; omega
        obtain ⟨b1, b2, b3, b4, b5⟩ := ih _ _ _ _ (by simp only; omega) h2
        simp only [hlen, Nat.sub_self, List.take_zero, List.append_nil, List.length_nil, Nat.add_zero] at b1 b2
        have ht : (x :: sg).flatten.take (c.len - s.wb.length) = x.take (c.len - s.wb.length) := by
          rw [List.flatten_cons, List.take_append_of_le_length (by omega)]
        rw [ht]
        exact ⟨by rw [b1, a1], by rw [b2]; simp; omega, by rw [b3, a2], by rw [b4, a3], by rw [b5, a4]⟩
      · rw [if_neg hx] at h2
        have hlen : (s1.wb ++ x.take x.length).length = s.wb.length + x.length := by rw [a1]; simp
        obtain ⟨b1, b2, b3, b4, b5⟩ := ih _ _ _ _ (by simp only; omega) h2
        simp only [hlen] at b1 b2
        have ht : (x :: sg).flatten.take (c.len - s.wb.length) = x ++ sg.flatten.take (c.len - (s.wb.length + x.length)) := by
          rw [List.flatten_cons, List.take_append, List.take_of_length_le (by omega : x.length ≤ c.len - s.wb.length),
            Nat.sub_sub]
        rw [ht]
        refine ⟨by rw [b1, a1]; simp, by rw [b2, List.length_append]; omega, by rw [b3, a2], by rw [b4, a3], by rw [b5, a4]⟩
    · rw [if_neg hlt] at h
      simp at h
      obtain ⟨rfl, rfl⟩ := h
      have : c.len - s.wb.length = 0 := by omega
      simp [this]

/-- A history event, with the time since the last one. -/
inductive Ev where
  | write (sg : List (List UInt8)) (sink : Option Nat) (dt : Nat)
  /-- The timer goes off (at any time). -/
  | tick (dt : Nat)
  /-- The filter is asked to close. -/
  | close

/-- The layer with its history: what the lower layer got, what went into the buffer, when the oldest
byte held came, the absolute time the timer ends. -/
structure Log where
  s : St
  now : Nat := 0
  out : List UInt8 := []
  inp : List UInt8 := []
  oldest : Option Nat := none
  deadline : Option Int := none
  failed : Bool := false

/-- What a write takes in: what fits. -/
def fits (c : Cfg) (s : St) (sg : List (List UInt8)) : List UInt8 := sg.flatten.take (c.len - s.wb.length)

def Log.step (c : Cfg) (l : Log) : Ev → Option Log
  | .write sg sink dt => do
    let now := l.now + dt
    let (s, o) ← ulWrite c l.s sg sink now
    some
      { s, now, out := l.out ++ o.took, inp := l.inp ++ fits c l.s sg
        oldest := if s.wb = [] then none else some (l.oldest.getD now)
        deadline := o.timer.map fun d => (now : Int) + d
        failed := l.failed || o.count.isNone }
  | .tick dt => some { l with s := timeout l.s, now := l.now + dt, deadline := none }
  | .close => some { l with s := (tryDisconnect l.s).2 }

def Log.run (c : Cfg) (l : Log) (evs : List Ev) : Option Log := evs.foldlM (Log.step c) l

def start (c : Cfg) : Log := { s := St.alloc c }

structure Inv (c : Cfg) (l : Log) : Prop where
  size : l.s.wb.length ≤ c.len
  data : l.out ++ l.s.wb = l.inp
  old : l.oldest = none ↔ l.s.wb = []
  fe : l.s.firstIn = true → l.s.wb ≠ []
  fo : l.s.wb ≠ [] → l.s.inClose = false → l.s.firstIn = true
  first : ∀ t, l.s.firstIn = true → l.oldest = some t → l.s.maxEnd ≤ t + c.maxDelay
  dead : ∀ d, l.deadline = some d → ∃ t, l.oldest = some t ∧ d ≤ ((t + c.maxDelay : Nat) : Int)

theorem sendOut_spec (c : Cfg) (s : St) (sink : Option Nat) :
    (sendOut c s sink).2.2.2 ++ (sendOut c s sink).1.wb = s.wb ∧ (sendOut c s sink).1.wb.length ≤ s.wb.length ∧
      (sendOut c s sink).1.inClose = s.inClose ∧ (sendOut c s sink).1.maxEnd = s.maxEnd ∧
      ((sendOut c s sink).1.wb ≠ [] → (sendOut c s sink).1.firstIn = s.firstIn) ∧
      ((s.firstIn = true → s.wb ≠ []) → (sendOut c s sink).1.firstIn = true → (sendOut c s sink).1.wb ≠ []) := by
  simp only [sendOut]
  split
  · by_cases h1 : (sink.getD 0 > 0 && !s.inClose) = true <;> by_cases h2 : sink.getD 0 ≥ s.wb.length <;>
      simp [h1, h2, List.take_of_length_le]
  · simp

theorem step_inv (c : Cfg) (l l' : Log) (e : Ev) (h : Inv c l) (hs : l.step c e = some l')
    (hgood : l'.failed = false) : Inv c l' := by
  cases e with
  | tick dt =>
    simp only [Log.step, Option.some.injEq] at hs
    subst hs
    exact ⟨h.size, h.data, h.old, h.fe, h.fo, h.first, by simp⟩
  | close =>
    simp only [Log.step, Option.some.injEq] at hs
    subst hs
    simp only [tryDisconnect]
    split
    · exact ⟨h.size, h.data, h.old, h.fe, h.fo, h.first, h.dead⟩
    · exact ⟨h.size, h.data, h.old, h.fe, by simp, h.first, h.dead⟩
  | write sg sink dt =>
    simp only [Log.step, Option.bind_eq_bind, Option.bind_eq_some_iff] at hs
    obtain ⟨⟨s, o⟩, h1, h2⟩ := hs
    obtain rfl := Option.some.inj h2
    simp only [Bool.or_eq_false_iff] at hgood
    obtain ⟨hg1, hg2⟩ := hgood
    simp only [ulWrite, Option.bind_eq_bind, Option.bind_eq_some_iff] at h1
    obtain ⟨⟨s1, n⟩, hc, h1⟩ := h1
    obtain ⟨c1, c2, c3, c4, c5⟩ := copyIn_spec c sg _ _ _ _ h.size hc
    obtain ⟨q1, q2, q3, q4, q5, q6⟩ := sendOut_spec c s1 sink
    have hsz : s1.wb.length ≤ c.len := by rw [c1]; have := h.size; simp; omega
    generalize hr : sendOut c s1 sink = r at *
    obtain ⟨s2, er, off, tk⟩ := r
    simp only at h1 q1 q2 q3 q4 q5 q6
    have hdata : (l.out ++ tk) ++ s2.wb = l.inp ++ fits c l.s sg := by
      rw [List.append_assoc, q1, c1, ← List.append_assoc, h.data]; rfl
    have hfe1 : s1.firstIn = true → s1.wb ≠ [] := by
      rw [c3, c1]
      intro hf
      have := h.fe hf
      simp [this]
    have hfe2 := q6 hfe1
    -- with the first character seen, the end time comes from the start of the hold
    have hfirst : ∀ t, s2.firstIn = true → some (l.oldest.getD (l.now + dt)) = some t → s2.maxEnd ≤ t + c.maxDelay := by
      intro t hfi ht
      have hw := hfe2 hfi
      have hl : l.s.firstIn = true := by rw [← c3, ← q5 hw]; exact hfi
      cases ho : l.oldest with
      | none => exact absurd (h.old.mp ho) (h.fe hl)
      | some t0 =>
        rw [ho] at ht
        obtain rfl := Option.some.inj ht
        rw [q4, c5]
        exact h.first _ hl ho
    -- without it, the hold starts now
    have hnew : s2.wb ≠ [] → s2.inClose = false → s2.firstIn = false → l.oldest = none := by
      intro hw hcl hfi
      rw [h.old]
      apply Classical.byContradiction
      intro hne
      have h3 := h.fo hne (by rw [← c4, ← q3]; exact hcl)
      rw [q5 hw, c3, h3] at hfi
      simp at hfi
    by_cases hcond : (!er && decide (s2.wb.length > 0) && !s2.inClose) = true
    · rw [if_pos hcond] at h1
      simp only [Option.some.injEq, Prod.mk.injEq] at h1
      obtain ⟨rfl, rfl⟩ := h1
      simp only [Bool.and_eq_true, Bool.not_eq_true', decide_eq_true_eq] at hcond
      obtain ⟨⟨_, hpos⟩, hcl⟩ := hcond
      have hw : s2.wb ≠ [] := by intro h0; rw [h0] at hpos; simp at hpos
      by_cases hfi : s2.firstIn = true
      · simp only [startTimer, hfi, Bool.not_true, Bool.false_eq_true, if_false, if_neg hw]
        refine ⟨by simp only; omega, hdata, by simp [hw], fun _ => hw, fun _ _ => hfi, fun t hf ht => hfirst t hf ht, ?_⟩
        intro d hd
        simp only [Option.map_some, Option.some.injEq] at hd
        refine ⟨_, rfl, ?_⟩
        have hm := hfirst _ hfi rfl
        subst hd
        split <;> omega
      · have hfi : s2.firstIn = false := by simpa using hfi
        have ho := hnew hw hcl hfi
        simp only [startTimer, hfi, Bool.not_false, if_true, if_neg hw, ho, Option.getD_none]
        refine ⟨by simp only; omega, hdata, by simp [hw], fun _ => hw, fun _ _ => rfl, ?_, ?_⟩
        · intro t _ ht
          obtain rfl := Option.some.inj ht
          exact Nat.le_refl _
        · intro d hd
          simp only [Option.map_some, Option.some.injEq] at hd
          refine ⟨_, rfl, ?_⟩
          subst hd
          split <;> omega
    · rw [if_neg hcond] at h1
      simp only [Option.some.injEq, Prod.mk.injEq] at h1
      obtain ⟨rfl, rfl⟩ := h1
      have her : er = false := by
        cases er with
        | false => rfl
        | true => simp at hg2
      have hcond' : s2.wb = [] ∨ s2.inClose = true := by
        subst her
        by_cases hw : s2.wb = []
        · exact Or.inl hw
        · right
          have : s2.wb.length > 0 := List.length_pos_iff.mpr hw
          simpa [this] using hcond
      refine ⟨by simp only; omega, hdata, ?_, hfe2, ?_, ?_, by simp⟩
      · by_cases hw : s2.wb = [] <;> simp [hw]
      · intro hw hcl
        rcases hcond' with h0 | h0
        · exact absurd h0 hw
        · rw [hcl] at h0; simp at h0
      · intro t hf ht
        have hw := hfe2 hf
        simp only [if_neg hw] at ht
        exact hfirst t hf ht

theorem run_inv (c : Cfg) (evs : List Ev) : ∀ l l' : Log, Inv c l → Log.run c l evs = some l' → l'.failed = false → Inv c l' := by
  have mono : ∀ (evs : List Ev) (l l' : Log), Log.run c l evs = some l' → l'.failed = false → l.failed = false := by
    intro evs
    induction evs with
    | nil => intro l l' h hf; simp [Log.run] at h; subst h; exact hf
    | cons e evs ih =>
      intro l l' h hf
      simp only [Log.run, List.foldlM_cons, Option.bind_eq_bind, Option.bind_eq_some_iff] at h
      obtain ⟨l1, h1, h2⟩ := h
      have := ih l1 l' h2 hf
      cases e with
      | tick dt => simp only [Log.step, Option.some.injEq] at h1; subst h1; exact this
      | close => simp only [Log.step, Option.some.injEq] at h1; subst h1; exact this
      | write sg sink dt =>
        simp only [Log.step, Option.bind_eq_bind, Option.bind_eq_some_iff] at h1
        obtain ⟨_, _, h3⟩ := h1
        obtain rfl := Option.some.inj h3
        simp only [Bool.or_eq_false_iff] at this
        exact this.1
  induction evs with
  | nil => intro l l' hi h _; simp [Log.run] at h; subst h; exact hi
  | cons e evs ih =>
    intro l l' hi h hf
    simp only [Log.run, List.foldlM_cons, Option.bind_eq_bind, Option.bind_eq_some_iff] at h
    obtain ⟨l1, h1, h2⟩ := h
    exact ih l1 l' (step_inv c l l1 e hi h1 (mono evs l1 l' h2 hf)) h2 hf

theorem start_inv (c : Cfg) : Inv c (start c) := by
  refine ⟨?_, ?_, ?_, ?_, ?_, ?_, ?_⟩ <;> simp [start, St.alloc]

/-- **C37, order and delay.**  For every history of writes, timer expiries and close requests in which
the lower layer does not fail and which reads no byte it should not: the lower layer got
exactly the bytes taken in, in order, up to what is held; at most `writebuf` bytes are held; and a
running timer ends no later than `max_delay` after the buffer last became non-empty, so no held
byte waits longer.  Missing: reads outside the caller's data, see `C37_scan_violated`. -/
theorem C37_order_delay_partial (c : Cfg) (evs : List Ev) (l : Log) (h : Log.run c (start c) evs = some l)
    (hf : l.failed = false) :
    l.out ++ l.s.wb = l.inp ∧ l.s.wb.length ≤ c.len ∧
      ∀ d, l.deadline = some d → ∃ t, l.oldest = some t ∧ d ≤ (t : Int) + c.maxDelay := by
  have hi := run_inv c evs _ _ (start_inv c) h hf
  refine ⟨hi.data, hi.size, fun d hd => ?_⟩
  obtain ⟨t, h1, h2⟩ := hi.dead d hd
  exact ⟨t, h1, by omega⟩

/-- **C37, no strings.**  Without send-on strings no history reads outside the caller's data. -/
theorem C37_safe_without_sendon_partial (c : Cfg) (hc : c.sendon = []) (evs : List Ev) :
    ∃ l, Log.run c (start c) evs = some l := by
  have hcopy : ∀ (sg : List (List UInt8)) (s : St) (n : Nat), ∃ r, copyIn c s n sg = some r := by
    intro sg
    induction sg with
    | nil => intro s n; exact ⟨_, rfl⟩
    | cons x sg ih =>
      intro s n
      rw [copyIn]
      split
      · simp only [scanLoop_empty c hc, Option.bind_eq_bind, Option.bind_some]; exact ih _ _
      · exact ⟨_, rfl⟩
  have hstep : ∀ (e : Ev) (l : Log), ∃ l', l.step c e = some l' := by
    intro e l
    cases e with
    | tick dt => exact ⟨_, rfl⟩
    | close => exact ⟨_, rfl⟩
    | write sg sink dt =>
      obtain ⟨⟨s, n⟩, hr⟩ := hcopy sg l.s 0
      simp only [Log.step, ulWrite, hr, Option.bind_eq_bind, Option.bind_some]
      split <;> exact ⟨_, rfl⟩
  have : ∀ (evs : List Ev) (l : Log), ∃ l', Log.run c l evs = some l' := by
    intro evs
    induction evs with
    | nil => intro l; exact ⟨l, rfl⟩
    | cons e evs ih =>
      intro l
      obtain ⟨l1, h1⟩ := hstep e l
      obtain ⟨l2, h2⟩ := ih l1
      exact ⟨l2, by simp only [Log.run, List.foldlM_cons, h1, Option.bind_eq_bind, Option.bind_some]; exact h2⟩
  exact this evs _

/-- **C37, the timer sends.**  After the timer expired the held bytes are pending, and the next call
of any kind offers the whole buffer to the lower layer. -/
theorem C37_timeout_sends (c : Cfg) (s : St) (h : s.wb ≠ []) (sink : Option Nat) (now : Nat) :
    pending (timeout s) = true ∧
      ∃ s' o, ulWrite c (timeout s) [] sink now = some (s', o) ∧ o.offered = some s.wb := by
  have hp : s.wb.length > 0 := List.length_pos_iff.mpr h
  refine ⟨by simp [pending, timeout, hp], ?_⟩
  simp only [ulWrite, copyIn, Option.bind_eq_bind, Option.bind_some]
  have : (sendOut c (timeout s) sink).2.2.1 = some s.wb := by simp [sendOut, timeout]
  split
  · exact ⟨_, _, rfl, this⟩
  · exact ⟨_, _, rfl, this⟩

/-- Writes at 0 and 30 with a delay of 50 and a maximum of 70: the timer ends at 50, then at 70. -/
example : let c : Cfg := ⟨100, 50, 70, []⟩
    (Log.run c (start c) [.write [[1, 2]] (some 9) 0]).map (·.deadline) = some (some 50) ∧
    (Log.run c (start c) [.write [[1, 2]] (some 9) 0, .write [[3]] (some 9) 30]).map
      (fun l => (l.deadline, l.oldest, l.s.wb)) = some (some 70, some 0, [1, 2, 3]) ∧
    (Log.run c (start c) [.write [[1, 2]] (some 9) 0, .write [[3]] (some 9) 30, .tick 40, .write [] (some 2) 0]).map
      (fun l => (l.out, l.s.wb)) = some ([1, 2], [3]) := by decide +kernel

/-- **C37 violated.**  With any send-on string, a write of a single buffer shorter than the room left reads
past the caller's data (the scan runs to `left`, :199).  The outcome `none` is an access outside a
buffer: here of the caller's data, or of a send-on string. -/
theorem C37_scan_violated (c : Cfg) (hc : c.sendon ≠ []) (s : St) (d : List UInt8) (hd : s.wb.length + d.length < c.len)
    (sink : Option Nat) (now : Nat) : ulWrite c s [d] sink now = none := by
  have key : ∀ (n j : Nat) (s : St), d.length < j + n → scanLoop c d j s n = none ∨ d.length < j := by
    intro n
    induction n with
    | zero => intro j s h; right; omega
    | succ n ih =>
      intro j s h
      left
      rw [scanLoop, if_neg hc]
      cases hb : d[j]? with
      | none => rfl
      | some b =>
        have hj : j < d.length := (List.getElem?_eq_some_iff.mp hb).1
        simp only []
        cases hs : scanAll c.sendon s.spos b with
        | none => rfl
        | some r =>
          simp only [Option.bind_eq_bind, Option.bind_some]
          rcases ih (j + 1) { s with spos := r.1, ready := s.ready || r.2 } (by omega) with h' | h'
          · exact h'
          · omega
  have h1 := key (c.len - s.wb.length) 0 s (by omega)
  simp only [Nat.not_lt_zero, or_false] at h1
  simp [ulWrite, copyIn, (by omega : s.wb.length < c.len), h1]

/-- The smallest case: one byte written to an empty 1000 byte buffer with the string "\n" reads buf[1]. -/
example : ulWrite ⟨1000, 50, 70, [[10]]⟩ (St.alloc ⟨1000, 50, 70, [[10]]⟩) [[65]] (some 1) 0 = none :=
  C37_scan_violated _ (by simp) _ _ (by simp [St.alloc]) _ _

/-! ### C58: send-on strings -/

/-- Scan bytes for one string: position and whether it matched, over a whole stream. -/
def scanStr (str : List UInt8) (pos : Nat) (m : Bool) : List UInt8 → Option (Nat × Bool)
  | [] => some (pos, m)
  | b :: bs => do
    let (p, k) ← scan1 str pos b
    scanStr str p (m || k) bs

/-- **C58, soundness.**  The scanner reports a match only if the string occurs in the stream, and it never
reads past the string (if that is not empty). -/
theorem C58_sound_partial (str : List UInt8) (hs : str ≠ []) (bs : List UInt8) :
    ∃ p m, scanStr str 0 false bs = some (p, m) ∧ p < str.length ∧ (m = true → str <:+: bs) := by
  have hpos : 0 < str.length := List.length_pos_iff.mpr hs
  have key : ∀ (bs pre : List UInt8) (pos : Nat) (m : Bool), pos < str.length → str.take pos <:+ pre →
      (m = true → str <:+: pre) →
      ∃ p m', scanStr str pos m bs = some (p, m') ∧ p < str.length ∧ (m' = true → str <:+: pre ++ bs) := by
    intro bs
    induction bs with
    | nil => intro pre pos m h1 _ h3; exact ⟨pos, m, rfl, h1, by simpa using h3⟩
    | cons b bs ih =>
      intro pre pos m h1 h2 h3
      have h3' : m = true → str <:+: pre ++ [b] := fun h => (h3 h).trans (List.prefix_append _ _).isInfix
      rw [scanStr, scan1, List.getElem?_eq_getElem h1]
      simp only []
      by_cases hb : str[pos] = b
      · have hsuf : str.take (pos + 1) <:+ pre ++ [b] := by
          obtain ⟨q, hq⟩ := h2
          refine ⟨q, ?_⟩
          rw [List.take_succ_eq_append_getElem h1, hb, ← List.append_assoc, hq]
        rw [if_pos hb]
        by_cases hp : pos + 1 ≥ str.length
        · rw [if_pos hp]
          rw [List.take_of_length_le hp] at hsuf
          have := ih (pre ++ [b]) 0 (m || true) hpos (by simp) (fun _ => hsuf.isInfix)
          simpa using this
        · rw [if_neg hp]
          have := ih (pre ++ [b]) (pos + 1) (m || false) (by omega) hsuf (by simpa using h3')
          simpa using this
      · rw [if_neg hb]
        have := ih (pre ++ [b]) 0 (m || false) hpos (by simp) (by simpa using h3')
        simpa using this
  simpa using key bs [] 0 false hpos (by simp) (by simp)

/-- **C58, one byte strings.**  A string of one byte is found exactly when it occurs. -/
theorem C58_single_byte_partial (x : UInt8) (bs : List UInt8) : scanStr [x] 0 false bs = some (0, bs.contains x) := by
  have key : ∀ (bs : List UInt8) (m : Bool), scanStr [x] 0 m bs = some (0, m || bs.contains x) := by
    intro bs
    induction bs with
    | nil => intro m; simp [scanStr]
    | cons b bs ih =>
      intro m
      rw [scanStr, scan1]
      simp only [List.getElem?_cons_zero]
      by_cases hb : x = b
      · subst hb; simp [ih]
      · simp [hb, ih]
  simpa using key bs false

/-- **C58 violated.**  "aab" is not found in "aaab": on a mismatch the scanner starts again after the
mismatched byte (:212). -/
theorem C58_overlap_violated : [97, 97, 98] <:+: [97, 97, 97, (98 : UInt8)] ∧
    scanStr [97, 97, 98] 0 false [97, 97, 97, 98] = some (0, false) := by
  exact ⟨⟨[97], [], rfl⟩, by decide +kernel⟩

example : scanStr [97, 98] 0 false [99, 97, 98, 97] = some (1, true) := by decide +kernel

end Gensio.Chardelay
