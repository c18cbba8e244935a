import Verif.Model.Acontrol

/-!
# Asynchronous controls and waiting for them: C215
-/

namespace Gensio.Acontrol

theorem first_spec (rs : List Nat) (i : Nat) :
    (∃ k r, rs[k]? = some r ∧ r ≠ eNotsup ∧ (∀ j, j < k → rs[j]? = some eNotsup) ∧
      first rs i = ((List.range' i (k + 1)), r)) ∨
    ((∀ r ∈ rs, r = eNotsup) ∧ first rs i = (List.range' i rs.length, eNotfound)) := by
  induction rs generalizing i with
  | nil => right; simp [first]
  | cons r rs ih =>
    by_cases hr : r = eNotsup
    · rcases ih (i + 1) with ⟨k, r', h1, h2, h3, h4⟩ | ⟨h1, h2⟩
      · left
        refine ⟨k + 1, r', by simpa using h1, h2, ?_, ?_⟩
        · intro j hj
          cases j with
          | zero => simp [hr]
          | succ j => simpa using h3 j (by omega)
        · simp [first, hr, h4, List.range'_succ]
      · right
        refine ⟨by simpa [hr] using h1, ?_⟩
        simp [first, hr, h2, List.range'_succ]
    · left
      exact ⟨0, r, by simp, hr, by simp, by simp [first, hr]⟩

/-- **C215**: a control for the first gensio that handles it is given to the
gensios of the stack from the top down to the first that does not say that it
has no such control, whose result is returned; if there is none the result is
that none was found. -/
theorem C215_first (rs : List Nat) :
    (∃ k r, rs[k]? = some r ∧ r ≠ eNotsup ∧ (∀ j, j < k → rs[j]? = some eNotsup) ∧
      acontrol rs depthFirst = (List.range (k + 1), r)) ∨
    ((∀ r ∈ rs, r = eNotsup) ∧ acontrol rs depthFirst = (List.range rs.length, eNotfound)) := by
  simpa [acontrol, List.range_eq_range'] using first_spec rs 0

/-- **C215**: a control for one depth is given to the gensio at that depth, and
to no other. -/
theorem C215_depth (rs : List Nat) (d : Nat) :
    acontrol rs d = match rs[d]? with
      | some r => ([d], r)
      | none => ([], eNotfound) := by
  have h1 : ¬ ((d : Int) = depthFirst) := by simp [depthFirst]
  have h2 : ¬ ((d : Int) < 0) := by omega
  simp only [acontrol, h1, h2, if_false, Int.toNat_natCast]
  cases rs[d]? <;> rfl

example : acontrol [2, 2, 0, 7] depthFirst = ([0, 1, 2], 0) ∧ acontrol [2, 2, 0, 7] 3 = ([3], 7) ∧
    acontrol [2, 2] depthFirst = ([0, 1], eNotfound) ∧ acontrol [2, 2] (-1) = ([], eInval) := by decide +kernel

/-- **C215, partial**: an answer that fits into the buffer is put at its start,
the rest of the buffer stays, the length is that of the answer, the waiter is
released, and the result is no error.  Partial: the answer must fit into the
buffer, and the buffer must not be one byte long; see `C215_overflow_violated`
and `C215_one_violated`. -/
theorem C215_answer_partial (s : S) (intr : Bool) (buf str : List UInt8) (hc : s.cur = none)
    (hf : str.length ≤ buf.length) (hb : buf.length ≠ 1) :
    ∃ s' b, s.steps [.call intr true buf 0, .answer 0 str, .wake] = some (s', [{ rv := 0, buf := b, len := str.length }]) ∧
      b.length = buf.length ∧ (∀ i, i < str.length → b[i]? = str[i]?) ∧
      (∀ i, str.length ≤ i → b[i]? = buf[i]?) ∧ s'.cur = none ∧ s'.waiters = s.waiters ∧ s'.late = s.late := by
  have hd : sDone true buf buf.length 0 str = some (str ++ buf.drop str.length, str.length) := by
    simp only [sDone, and_self, if_true]
    rcases str with _ | ⟨x, str⟩
    · simp
    · rw [if_pos, if_pos hf]
      have h1 : dec buf.length ≠ 0 := by
        simp only [dec]
        simp only [List.length_cons] at hf
        split <;> omega
      split
      · exact h1
      · simp
  refine ⟨s, str ++ buf.drop str.length, ?_, ?_, ?_, ?_, hc, rfl, rfl⟩
  · obtain ⟨cur, w, l⟩ := s
    simp only at hc
    subst hc
    simp [S.steps, S.step, hd]
  · simp; omega
  · intro i hi
    rw [List.getElem?_append_left hi]
  · intro i hi
    rw [List.getElem?_append_right hi, List.getElem?_drop]
    congr 1
    omega

example : (S.steps {} [.call false true [1, 2, 3, 4] 0, .answer 0 [8, 9], .wake]) =
    some ({}, [{ rv := 0, buf := [8, 9, 3, 4], len := 2 }]) := by decide +kernel

/-- **C215 is violated**: every answer that is longer than the buffer of the
caller, which has two bytes or more or none at all, is written behind its end;
the manual says that it is cut, and that a buffer of no bytes tells the length
that is needed. -/
theorem C215_overflow_violated (s : S) (intr : Bool) (buf str : List UInt8) (hc : s.cur = none)
    (hf : buf.length < str.length) (hb : buf.length ≠ 1) (h64 : str.length ≤ 18446744073709551615) :
    s.steps [.call intr true buf 0, .answer 0 str, .wake] = none := by
  have hd : sDone true buf buf.length 0 str = none := by
    simp only [sDone, and_self, if_true]
    rw [if_pos, if_neg (by omega)]
    simp only [dec]
    split <;> split <;> omega
  simp [S.steps, S.step, hc, hd]

/-- **C215 is violated**: into a buffer of one byte nothing is written, though
an answer of one byte fits. -/
theorem C215_one_violated (x y : UInt8) :
    S.steps {} [.call false true [x] 0, .answer 0 [y], .wake] = some ({}, [{ rv := 0, buf := [x], len := 1 }]) := by
  simp [S.steps, S.step, sDone, dec]

/-- **C215**: a set, and an answer with an error, leave the buffer and the
length as they are and return the error. -/
theorem C215_set (s : S) (intr get : Bool) (buf str : List UInt8) (err : Nat) (hc : s.cur = none)
    (h : get = false ∨ err ≠ 0) :
    s.steps [.call intr get buf 0, .answer err str, .wake] = some (s, [{ rv := err, buf := buf, len := buf.length }]) := by
  have hd : sDone get buf buf.length err str = some (buf, buf.length) := by
    simp only [sDone]
    rw [if_neg]
    rcases h with h | h <;> simp [h]
  obtain ⟨cur, w, l⟩ := s
  simp only at hc
  subst hc
  simp [S.steps, S.step, hd]

/-- Answers never come late, calls are not interrupted, and answers fit into
the buffer that waits for them. -/
def Kind (es : List Ev) (n : Nat) : Prop :=
  (∀ rv, Ev.stop rv ∉ es) ∧ (∀ err str, Ev.answer err str ∈ es → str.length ≤ n) ∧
    (∀ i g b rv, Ev.call i g b rv ∈ es → n ≤ b.length)

/-- Calls that `gensio_acontrol` refuses while none waits. -/
def refusals : S → List Ev → Nat
  | _, [] => 0
  | s, e :: es =>
    (match e with
      | .call _ _ _ rv => if rv ≠ 0 ∧ s.cur = none then 1 else 0
      | _ => 0) +
    match s.step e with
    | none => 0
    | some (s1, _) => refusals s1 es

theorem kind_step (s : S) (e : Ev) (n : Nat) (hk : Kind [e] n) (hl : s.late = 0)
    (hb : ∀ c, s.cur = some c → n ≤ c.buf.length) (hw : s.cur.isSome = true → 0 < s.waiters) :
    ∃ s1 o, s.step e = some (s1, o) ∧ s1.late = 0 ∧ (∀ c, s1.cur = some c → n ≤ c.buf.length) ∧
      (s1.cur.isSome = true → 0 < s1.waiters) ∧
      s1.waiters + s.cur.isSome.toNat = s.waiters + s1.cur.isSome.toNat + refusals s [e] := by
  obtain ⟨k1, k2, k3⟩ := hk
  cases e with
  | call i g b rv =>
    have hn := k3 i g b rv (by simp)
    cases hc : s.cur with
    | some c => exact ⟨s, [], by simp [S.step, hc], hl, hb, hw, by simp [refusals, S.step, hc]⟩
    | none =>
      by_cases hr : rv = 0
      · exact ⟨{ s with cur := some { intr := i, get := g, buf := b, len := b.length }, waiters := s.waiters + 1 }, [],
          by simp [S.step, hc, hr], hl, by simpa using hn, by simp, by simp [refusals, S.step, hc, hr]⟩
      · exact ⟨{ s with waiters := s.waiters + 1 }, [{ rv := rv, buf := b, len := b.length }],
          by simp [S.step, hc, hr], hl, by simp [hc], by simp, by simp [refusals, S.step, hc, hr]⟩
  | answer err str =>
    have hn := k2 err str (by simp)
    cases hc : s.cur with
    | none => exact ⟨s, [], by simp [S.step, hc], hl, hb, hw, by simp [refusals, S.step, hc]⟩
    | some c =>
      have hcb := hb c hc
      by_cases hwk : c.woken = true
      · exact ⟨s, [], by simp [S.step, hc, hwk], hl, hb, hw, by simp [refusals, S.step, hc, hwk]⟩
      · have : ∃ b m, sDone c.get c.buf c.len err str = some (b, m) ∧ n ≤ b.length := by
          have hle : str.length ≤ c.buf.length := by omega
          by_cases h0 : err = 0 ∧ c.get = true
          · by_cases hz : (if dec c.len < str.length then dec c.len else str.length) ≠ 0
            · refine ⟨str ++ c.buf.drop str.length, str.length, ?_, by simp; omega⟩
              simp only [sDone]
              rw [if_pos h0, if_pos hz, if_pos hle]
            · refine ⟨c.buf, str.length, ?_, hcb⟩
              simp only [sDone]
              rw [if_pos h0, if_neg hz]
          · refine ⟨c.buf, c.len, ?_, hcb⟩
            simp only [sDone]
            rw [if_neg h0]
        obtain ⟨b, m, hd, hbn⟩ := this
        have hwp := hw (by simp [hc])
        exact ⟨{ s with cur := some { c with buf := b, len := m, err := err, woken := true } }, [],
          by simp [S.step, hc, hwk, hd], hl, by simpa using hbn, by simpa using hwp,
          by simp [refusals, S.step, hc, hwk, hd]⟩
  | wake =>
    cases hc : s.cur with
    | none => exact ⟨s, [], by simp [S.step, hc], hl, hb, hw, by simp [refusals, S.step, hc]⟩
    | some c =>
      have hwp := hw (by simp [hc])
      by_cases hwk : c.woken = true
      · exact ⟨{ s with cur := none, waiters := s.waiters - 1 }, [{ rv := c.err, buf := c.buf, len := c.len }],
          by simp [S.step, hc, hwk], hl, by simp, by simp,
          by simp [refusals, S.step, hc, hwk]; omega⟩
      · exact ⟨s, [], by simp [S.step, hc, hwk], hl, hb, hw, by simp [refusals, S.step, hc, hwk]⟩
  | stop rv => exact absurd (by simp) (k1 rv)
  | lateAnswer => exact ⟨s, [], by simp [S.step, hl], hl, hb, hw, by simp [refusals, S.step, hl]⟩

/-- **C215, partial**: as long as no wait is interrupted and every answer fits
into every buffer, only the caller's memory is used, and a waiter is allocated
for the call that waits and for every call that was refused.  Partial: the
waiters of refused calls are lost; see `C215_leak_violated`,
`C215_interrupt_violated` and `C215_overflow_violated`. -/
theorem C215_safe_partial (es : List Ev) (n : Nat) (hk : Kind es n) :
    ∃ s o, S.steps {} es = some (s, o) ∧ s.waiters = s.cur.isSome.toNat + refusals {} es := by
  have all : ∀ (es : List Ev) (s : S), Kind es n → s.late = 0 → (∀ c, s.cur = some c → n ≤ c.buf.length) →
      (s.cur.isSome = true → 0 < s.waiters) →
      ∃ s1 o, s.steps es = some (s1, o) ∧
        s1.waiters + s.cur.isSome.toNat = s.waiters + s1.cur.isSome.toNat + refusals s es := by
    intro es
    induction es with
    | nil => intro s _ _ _ _; exact ⟨s, [], rfl, by simp [refusals]⟩
    | cons e es ih =>
      intro s ⟨k1, k2, k3⟩ hl hb hw
      obtain ⟨s1, o1, g1, g2, g3, g4, g5⟩ := kind_step s e n
        ⟨fun rv hm => k1 rv (by simp at hm; simp [hm]), fun x y hm => k2 x y (by simp at hm; simp [hm]),
          fun i g b rv hm => k3 i g b rv (by simp at hm; simp [hm])⟩ hl hb hw
      obtain ⟨s2, o2, f1, f2⟩ := ih s1
        ⟨fun rv hm => k1 rv (List.mem_cons_of_mem _ hm), fun x y hm => k2 x y (List.mem_cons_of_mem _ hm),
          fun i g b rv hm => k3 i g b rv (List.mem_cons_of_mem _ hm)⟩ g2 g3 g4
      refine ⟨s2, o1 ++ o2, by simp [S.steps, g1, f1], ?_⟩
      simp only [refusals, g1] at g5 ⊢
      omega
  obtain ⟨s1, o, h1, h2⟩ := all es {} hk rfl (by simp) (by simp)
  exact ⟨s1, o, h1, by simpa using h2⟩

example : Kind [.call false true [1, 2, 3, 4] 0, .answer 0 [8, 9], .wake, .call true true [1, 2] 5] 2 := by
  refine ⟨by simp, ?_, ?_⟩
  · intro err str h; simp at h; simp [h]
  · intro i g b rv h; simp at h; rcases h with h | h <;> simp [h]

/-- **C215 is violated**: every call that is refused loses its waiter. -/
theorem C215_leak_violated (k : Nat) (buf : List UInt8) :
    S.steps {} (List.replicate k (.call false true buf eNotfound)) =
      some ({ waiters := k }, List.replicate k { rv := eNotfound, buf := buf, len := buf.length }) := by
  have : ∀ w, S.steps { waiters := w } (List.replicate k (.call false true buf eNotfound)) =
      some ({ waiters := w + k }, List.replicate k { rv := eNotfound, buf := buf, len := buf.length }) := by
    induction k with
    | zero => intro w; simp [S.steps]
    | succ k ih =>
      intro w
      simp only [List.replicate_succ, S.steps, S.step, eNotfound] at ih ⊢
      rw [if_neg (by decide)]
      simp only [ih]
      simp; omega
  have := this 0
  simpa using this

/-- **C215 is violated**: the wait is interrupted and the call returns; the
answer that comes later is written into the frame of the call that is gone,
and the waiter is lost. -/
theorem C215_interrupt_violated (get : Bool) (buf : List UInt8) (rv : Nat) (hr : rv ≠ 0) :
    S.steps {} [.call true get buf 0, .stop rv] =
      some ({ waiters := 1, late := 1 }, [{ rv := rv, buf := buf, len := buf.length }]) ∧
    S.steps {} [.call true get buf 0, .stop rv, .lateAnswer] = none := by
  constructor <;> simp [S.steps, S.step, hr]

end Gensio.Acontrol
