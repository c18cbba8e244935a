import Verif.Model.Perf
/-!
# Properties of the throughput filter (C190–C194)
-/
namespace Gensio.Perf

variable {txt : Rep → List UInt8} {c : Cfg}

/-- Bytes written according to the reports of the timer. -/
def wrote : List Rep → Nat
  | [] => 0
  | .tick w _ _ :: rs => w + wrote rs
  | .total .. :: rs => wrote rs

/-- Bytes read according to them. -/
def read : List Rep → Nat
  | [] => 0
  | .tick _ r _ :: rs => r + read rs
  | .total .. :: rs => read rs

/-- Final reports. -/
def totals (l : List Rep) : Nat := l.countP (fun r => r matches .total ..)

/-- The texts of reports, one after the other. -/
def texts (txt : Rep → List UInt8) (l : List Rep) : List UInt8 := (l.map txt).flatten

/-- A text is not empty and fits `print_buffer`. -/
def Fits (txt : Rep → List UInt8) : Prop := ∀ r, 0 < (txt r).length ∧ (txt r).length ≤ 1023

theorem wrote_add (a b : List Rep) : wrote (a ++ b) = wrote a + wrote b := by
  induction a with
  | nil => simp [wrote]
  | cons x a ih => cases x <;> simp [wrote, ih] <;> omega

theorem read_add (a b : List Rep) : read (a ++ b) = read a + read b := by
  induction a with
  | nil => simp [read]
  | cons x a ih => cases x <;> simp [read, ih] <;> omega

theorem texts_add (a b : List Rep) : texts txt (a ++ b) = texts txt a ++ texts txt b := by simp [texts]

/-- What the upper layer has still to take. -/
def F.due (f : F) : List UInt8 := if f.pend = 0 then [] else f.buf.drop f.pos

/-- The invariant of a session. -/
structure Inv (txt : Rep → List UInt8) (c : Cfg) (f : F) : Prop where
  sum : f.sent + f.left = c.wlen
  tw : wrote f.reps + f.sinceW = f.sent
  tr : read f.reps + f.sinceR = f.got
  rc : f.readCount = f.got
  ex : f.expect = c.expect - f.got
  ul : ∀ o, f.inUl = some o → o ≤ f.left ∧ o ≤ c.wbuf
  text : texts txt f.reps = f.given ++ f.due
  len : f.pend ≠ 0 → f.buf.length = f.pend ∧ f.pos < f.pend ∧ f.pend ≤ 1023
  ll : ∀ t, f.inLl = some t → f.pend ≠ 0 ∧ t = f.buf.drop f.pos
  tot : totals f.reps = f.fin.toNat

theorem init_inv : Inv txt c (init c) := by
  constructor <;> simp [init, wrote, read, totals, texts, F.due]

theorem cleanup_inv (f : F) : Inv txt c (f.cleanup c) := by
  constructor <;> simp [F.cleanup, wrote, read, totals, texts, F.due]

theorem print_inv (hf : Fits txt) {f : F} {r : Rep} (hp : f.pend = 0) (text : texts txt f.reps = f.given ++ f.due) :
    texts txt (f.print txt r).reps = (f.print txt r).given ++ (f.print txt r).due ∧
      ((f.print txt r).pend ≠ 0 → (f.print txt r).buf.length = (f.print txt r).pend ∧ (f.print txt r).pos < (f.print txt r).pend ∧ (f.print txt r).pend ≤ 1023) := by
  obtain ⟨h1, h2⟩ := hf r
  have e : (txt r).take 1023 = txt r := List.take_of_length_le h2
  have d : f.due = [] := by simp [F.due, hp]
  rw [d] at text
  refine ⟨?_, fun _ => ⟨?_, h1, h2⟩⟩
  · have hne : (txt r).length ≠ 0 := by omega
    have hd : (f.print txt r).due = (txt r).take 1023 := by
      unfold F.due
      rw [if_neg (by exact hne)]
      rfl
    have hr : (f.print txt r).reps = f.reps ++ [r] := rfl
    have hg : (f.print txt r).given = f.given := rfl
    rw [hd, hr, hg, texts_add, text, e]
    simp [texts]
  · simp only [F.print, e]

theorem endCheck_inv (hf : Fits txt) {f : F} (h : Inv txt c f) (now : T) : Inv txt c (f.endCheck txt c now) := by
  unfold F.endCheck
  split
  · exact h
  · have key : ∀ (a b : Option T), Inv txt c { f with rEnd := a, wEnd := b } := fun a b =>
      ⟨h.sum, h.tw, h.tr, h.rc, h.ex, h.ul, h.text, h.len, h.ll, h.tot⟩
    have hg : ∃ a b, (f.setREnd now).setWEnd now = { f with rEnd := a, wEnd := b } := by
      unfold F.setREnd F.setWEnd
      split <;> split <;> exact ⟨_, _, rfl⟩
    obtain ⟨a, b, hg⟩ := hg
    rw [hg]
    simp only
    split
    · rename_i hc
      obtain ⟨p1, p2⟩ := print_inv (r := .total (c.wlen - f.left) f.readCount ((b.getD now).since f.start) ((a.getD now).since f.start)) hf
        (f := { f with rEnd := some ((a.getD now).since f.start), wEnd := some ((b.getD now).since f.start) }) hc.2 h.text
      refine ⟨h.sum, ?_, ?_, h.rc, h.ex, h.ul, p1, p2, ?_, ?_⟩
      · simpa [F.print, wrote_add, wrote] using h.tw
      · simpa [F.print, read_add, read] using h.tr
      · intro t ht
        exact absurd hc.2 (h.ll t ht).1
      · have := h.tot
        simp only [Bool.not_eq_true'] at hc
        rw [hc.1] at this
        simpa [F.print, totals] using this
    · exact key a b

theorem step_inv (hf : Fits txt) {f : F} (h : Inv txt c f) (o : Op) : ∃ f', step txt c f o = some f' ∧ Inv txt c f' := by
  have w : ∀ {g : F} (now : T), Inv txt c g → Inv txt c (g.setWEnd now) := by
    intro g now h
    unfold F.setWEnd
    split
    · exact ⟨h.sum, h.tw, h.tr, h.rc, h.ex, h.ul, h.text, h.len, h.ll, h.tot⟩
    · exact h
  have r : ∀ {g : F} (now : T), Inv txt c g → Inv txt c (g.setREnd now) := by
    intro g now h
    unfold F.setREnd
    split
    · exact ⟨h.sum, h.tw, h.tr, h.rc, h.ex, h.ul, h.text, h.len, h.ll, h.tot⟩
    · exact h
  cases o with
  | opened now => exact ⟨_, rfl, h.sum, h.tw, h.tr, h.rc, h.ex, h.ul, h.text, h.len, h.ll, h.tot⟩
  | ulBegin now =>
    simp only [step]
    split
    · refine ⟨_, rfl, ?_⟩
      unfold F.ulBegin
      split
      · refine ⟨h.sum, h.tw, h.tr, h.rc, h.ex, ?_, h.text, h.len, h.ll, h.tot⟩
        intro o e
        cases e
        exact ⟨Nat.min_le_left .., Nat.min_le_right ..⟩
      · split
        · split
          · exact endCheck_inv hf h now
          · split
            · exact ⟨h.sum, h.tw, h.tr, h.rc, h.ex, h.ul, h.text, h.len, h.ll, h.tot⟩
            · exact h
        · exact h
    · exact ⟨_, rfl, h⟩
  | ulEnd ans now =>
    simp only [step]
    split
    · rename_i o ho
      refine ⟨_, rfl, ?_⟩
      unfold F.ulEnd
      have h0 : Inv txt c { f with inUl := none } := ⟨h.sum, h.tw, h.tr, h.rc, h.ex, by simp, h.text, h.len, h.ll, h.tot⟩
      cases ans with
      | none => exact h0
      | some n =>
        obtain ⟨u1, u2⟩ := h.ul o ho
        have hs := h.sum
        have ht := h.tw
        have hn : (if n > o then o else n) ≤ f.left := by split <;> omega
        simp only
        generalize (if n > o then o else n) = k at hn
        have h1 : Inv txt c { f with inUl := none, sinceW := f.sinceW + k, left := f.left - k, sent := f.sent + k } :=
          ⟨by simp only; omega, by simp only; omega, h.tr, h.rc, h.ex, by simp, h.text, h.len, h.ll, h.tot⟩
        split
        · exact w now h1
        · exact h1
    · exact ⟨_, rfl, h⟩
  | llBegin n now =>
    simp only [step]
    split
    · rename_i hi
      unfold F.llBegin
      have hr := h.tr
      have hc := h.rc
      have he : (if n > f.expect then 0 else f.expect - n) = c.expect - (f.got + n) := by
        have := h.ex
        split <;> omega
      simp only
      generalize (if n > f.expect then 0 else f.expect - n) = e at he
      have h1 : Inv txt c { f with readCount := f.readCount + n, sinceR := f.sinceR + n, got := f.got + n, expect := e } :=
        ⟨h.sum, h.tw, by simp only; omega, by simp only; omega, he, h.ul, h.text, h.len, h.ll, h.tot⟩
      have h2 : Inv txt c (if c.expect ≠ 0 ∧ e = 0 then
          ({ f with readCount := f.readCount + n, sinceR := f.sinceR + n, got := f.got + n, expect := e } : F).setREnd now
          else { f with readCount := f.readCount + n, sinceR := f.sinceR + n, got := f.got + n, expect := e }) := by
        split
        · exact r now h1
        · exact h1
      generalize (if c.expect ≠ 0 ∧ e = 0 then
          ({ f with readCount := f.readCount + n, sinceR := f.sinceR + n, got := f.got + n, expect := e } : F).setREnd now
          else { f with readCount := f.readCount + n, sinceR := f.sinceR + n, got := f.got + n, expect := e }) = g at h2
      split
      · rename_i hp
        obtain ⟨l1, l2, l3⟩ := h2.len hp
        rw [if_neg (by omega)]
        refine ⟨_, rfl, h2.sum, h2.tw, h2.tr, h2.rc, h2.ex, h2.ul, h2.text, h2.len, ?_, h2.tot⟩
        intro t e
        cases e
        refine ⟨hp, List.take_of_length_le ?_⟩
        simp only [List.length_drop]
        omega
      · exact ⟨_, rfl, h2⟩
    · exact ⟨_, rfl, h⟩
  | llEnd ans =>
    simp only [step]
    split
    · rename_i t ht
      refine ⟨_, rfl, ?_⟩
      obtain ⟨hp, rfl⟩ := h.ll t ht
      obtain ⟨l1, l2, l3⟩ := h.len hp
      unfold F.llEnd
      cases ans with
      | none => exact ⟨h.sum, h.tw, h.tr, h.rc, h.ex, h.ul, h.text, h.len, by simp, h.tot⟩
      | some n =>
        have hn : (if n > f.pend - f.pos then f.pend - f.pos else n) ≤ f.pend - f.pos := by split <;> omega
        simp only
        generalize (if n > f.pend - f.pos then f.pend - f.pos else n) = k at hn
        have hd : f.due = (f.buf.drop f.pos).take k ++ f.buf.drop (f.pos + k) := by
          simp only [F.due, if_neg hp]
          rw [← List.drop_drop, List.take_append_drop]
        have ht := h.text
        rw [hd, ← List.append_assoc] at ht
        split
        · rename_i he
          refine ⟨h.sum, h.tw, h.tr, h.rc, h.ex, h.ul, ?_, by simp, by simp, h.tot⟩
          have : f.buf.drop (f.pos + k) = [] := List.drop_of_length_le (by omega)
          rw [this] at ht
          simpa [F.due] using ht
        · rename_i he
          refine ⟨h.sum, h.tw, h.tr, h.rc, h.ex, h.ul, ?_, fun _ => ⟨l1, by simp only; omega, l3⟩, by simp, h.tot⟩
          simpa [F.due, hp] using ht
    · exact ⟨_, rfl, h⟩
  | tick =>
    refine ⟨_, rfl, ?_⟩
    unfold F.tick
    simp only
    split
    · rename_i hp
      obtain ⟨p1, p2⟩ := print_inv (r := .tick f.sinceW f.sinceR (f.ticks + 1)) hf (f := { f with ticks := f.ticks + 1 }) hp h.text
      have ht := h.tw
      have hr := h.tr
      refine ⟨h.sum, ?_, ?_, h.rc, h.ex, h.ul, p1, p2, fun t e => absurd hp (h.ll t e).1, ?_⟩
      · simp only [F.print, wrote_add, wrote]; omega
      · simp only [F.print, read_add, read]; omega
      · simpa [F.print, totals] using h.tot
    · exact ⟨h.sum, h.tw, h.tr, h.rc, h.ex, h.ul, h.text, h.len, h.ll, h.tot⟩
  | ioErr now => exact ⟨_, rfl, endCheck_inv hf h now⟩
  | cleanup =>
    simp only [step]
    split
    · exact ⟨_, rfl, cleanup_inv f⟩
    · exact ⟨_, rfl, h⟩

theorem run_inv (hf : Fits txt) (os : List Op) : ∀ {f : F}, Inv txt c f → ∃ f', run txt c f os = some f' ∧ Inv txt c f' := by
  induction os with
  | nil => intro f h; exact ⟨f, rfl, h⟩
  | cons o os ih =>
    intro f h
    obtain ⟨g, q, hg⟩ := step_inv hf h o
    obtain ⟨g', q', hg'⟩ := ih hg
    exact ⟨g', by rw [run, q]; exact q', hg'⟩

/-- A text of one byte, for examples. -/
def one : Rep → List UInt8
  | .tick .. => [1]
  | .total .. => [2, 3]

theorem one_fits : Fits one := by intro r; cases r <;> simp [one]

theorem ulEnd_keep (f : F) (o : Nat) (ans : Option Nat) (now : T) : (f.ulEnd o ans now).reps = f.reps ∧ (f.ulEnd o ans now).rem = f.rem := by
  unfold F.ulEnd F.setWEnd
  cases ans with
  | none => exact ⟨rfl, rfl⟩
  | some n =>
    simp only
    generalize (if n > o then o else n) = k
    split
    · split <;> exact ⟨rfl, rfl⟩
    · exact ⟨rfl, rfl⟩

theorem llEnd_keep (f : F) (t : List UInt8) (ans : Option Nat) : (f.llEnd t ans).reps = f.reps ∧ (f.llEnd t ans).rem = f.rem := by
  unfold F.llEnd
  cases ans with
  | none => exact ⟨rfl, rfl⟩
  | some n =>
    simp only
    generalize (if n > f.pend - f.pos then f.pend - f.pos else n) = k
    split <;> exact ⟨rfl, rfl⟩

theorem llBegin_keep {f f' : F} {n : Nat} {now : T} (q : f.llBegin c n now = some f') : f'.reps = f.reps ∧ f'.rem = f.rem := by
  unfold F.llBegin at q
  simp only at q
  generalize (if n > f.expect then 0 else f.expect - n) = e at q
  have : ∀ g : F, (g.setREnd now).reps = g.reps ∧ (g.setREnd now).rem = g.rem := by
    intro g
    unfold F.setREnd
    split <;> exact ⟨rfl, rfl⟩
  have k : (if c.expect ≠ 0 ∧ e = 0 then
      ({ f with readCount := f.readCount + n, sinceR := f.sinceR + n, got := f.got + n, expect := e } : F).setREnd now
      else { f with readCount := f.readCount + n, sinceR := f.sinceR + n, got := f.got + n, expect := e }).reps = f.reps ∧
      (if c.expect ≠ 0 ∧ e = 0 then
      ({ f with readCount := f.readCount + n, sinceR := f.sinceR + n, got := f.got + n, expect := e } : F).setREnd now
      else { f with readCount := f.readCount + n, sinceR := f.sinceR + n, got := f.got + n, expect := e }).rem = f.rem := by
    split
    · exact this _
    · exact ⟨rfl, rfl⟩
  generalize (if c.expect ≠ 0 ∧ e = 0 then
      ({ f with readCount := f.readCount + n, sinceR := f.sinceR + n, got := f.got + n, expect := e } : F).setREnd now
      else { f with readCount := f.readCount + n, sinceR := f.sinceR + n, got := f.got + n, expect := e }) = g at q k
  split at q
  · split at q
    · cases q
    · cases q; exact k
  · cases q; exact k

/-! ## C190: the counts -/

/-- At any time of any session: what was written and what is left is the amount asked for; the reports of the timer and what was counted
since are exactly what the lower layer took and what came from it; and the lower layer is never offered more than is left or than
`write_data` holds. -/
theorem C190_counts (hf : Fits txt) (os : List Op) : ∃ f, run txt c (init c) os = some f ∧ f.sent + f.left = c.wlen ∧
    wrote f.reps + f.sinceW = f.sent ∧ read f.reps + f.sinceR = f.got ∧ f.expect = c.expect - f.got ∧
    ∀ n, f.inUl = some n → n ≤ f.left ∧ n ≤ c.wbuf := by
  obtain ⟨f, q, h⟩ := run_inv hf os (init_inv (txt := txt) (c := c))
  exact ⟨f, q, h.sum, h.tw, h.tr, h.ex, h.ul⟩

/-- There is at most one final report; it says what the lower layer took and what came from it until then. -/
theorem C190_total (hf : Fits txt) {os : List Op} {f f' : F} {o : Op} (q : run txt c (init c) os = some f) (q' : step txt c f o = some f') :
    totals f'.reps ≤ 1 ∧ ∀ w r tw tr, f'.reps = f.reps ++ [.total w r tw tr] → w = f'.sent ∧ r = f'.got := by
  obtain ⟨g, qg, h⟩ := run_inv hf os (init_inv (txt := txt) (c := c))
  rw [q] at qg
  cases qg
  obtain ⟨g', qg', h'⟩ := step_inv hf h o
  rw [q'] at qg'
  cases qg'
  have ht := h'.tot
  refine ⟨by rw [ht]; cases f'.fin <;> simp, ?_⟩
  intro w r tw tr e
  have no : f'.reps ≠ f.reps := by rw [e]; simp
  have ec : ∀ now, f' = f.endCheck txt c now → w = f'.sent ∧ r = f'.got := by
    intro now e'
    have hw := h'.sum
    have hr := h'.rc
    subst e'
    unfold F.endCheck at e no hw hr ⊢
    split at e
    · simp at e
    · rename_i hc
      rw [if_neg hc] at no hw hr ⊢
      have hg : ∃ a b, (f.setREnd now).setWEnd now = { f with rEnd := a, wEnd := b } := by
        unfold F.setREnd F.setWEnd
        split <;> split <;> exact ⟨_, _, rfl⟩
      obtain ⟨a, b, hg⟩ := hg
      rw [hg] at e no hw hr ⊢
      simp only at e no hw hr ⊢
      split at e
      · rename_i hd
        rw [if_pos hd] at hw hr ⊢
        simp only [F.print, List.append_cancel_left_eq, List.cons.injEq, Rep.total.injEq, and_true] at e hw hr ⊢
        omega
      · simp at e
  cases o with
  | opened now => cases q'; exact absurd rfl no
  | ulBegin now =>
    simp only [step] at q'
    split at q'
    · injection q' with q'
      unfold F.ulBegin at q'
      split at q'
      · subst q'; exact absurd rfl no
      · split at q'
        · split at q'
          · exact ec now q'.symm
          · split at q' <;> (subst q'; exact absurd rfl no)
        · subst q'; exact absurd rfl no
    · cases q'; exact absurd rfl no
  | ulEnd ans now =>
    exfalso
    simp only [step] at q'
    split at q'
    · cases q'
      exact no (ulEnd_keep ..).1
    · cases q'; exact no rfl
  | llBegin n now =>
    exfalso
    simp only [step] at q'
    split at q'
    · exact no (llBegin_keep q').1
    · cases q'; exact no rfl
  | llEnd ans =>
    exfalso
    simp only [step] at q'
    split at q'
    · cases q'
      exact no (llEnd_keep ..).1
    · cases q'; exact no rfl
  | tick =>
    exfalso
    simp only [step] at q'
    cases q'
    unfold F.tick at e no
    simp only at e no
    split at e
    · simp [F.print] at e
    · simp at e
  | ioErr now => cases q'; exact ec now rfl
  | cleanup =>
    exfalso
    simp only [step] at q'
    split at q'
    · cases q'
      simp [F.cleanup] at e
    · cases q'; exact no rfl

/-- 10 bytes written in two pieces, one report between, one at the end. -/
example : (match run one { wlen := 10, wbuf := 6 } (init { wlen := 10, wbuf := 6 }) [.opened ⟨1, 0⟩, .ulBegin ⟨1, 1⟩, .ulEnd (some 6) ⟨1, 2⟩, .tick, .llBegin 3 ⟨1, 3⟩, .llEnd (some 1),
      .ulBegin ⟨2, 1⟩, .ulEnd (some 9) ⟨2, 1⟩, .ulBegin ⟨2, 2⟩] with
    | some f => decide (f.reps = [.tick 6 0 1, .total 10 3 ⟨1, 1⟩ ⟨1, 2⟩] ∧ f.sent = 10) | none => false) = true := by decide +kernel

/-! ## C191: the texts -/

/-- In any session the upper layer gets the texts of the reports, whole and in order: what it took and what is waiting is their
concatenation.  Nothing is read behind the end of the buffer. -/
theorem C191_text (hf : Fits txt) (os : List Op) : ∃ f, run txt c (init c) os = some f ∧ texts txt f.reps = f.given ++ f.due ∧
    (f.due = [] ↔ f.ulPending = false) ∧ ∀ t, f.inLl = some t → t = f.due := by
  obtain ⟨f, q, h⟩ := run_inv hf os (init_inv (txt := txt) (c := c))
  refine ⟨f, q, h.text, ?_, ?_⟩
  · unfold F.due F.ulPending
    split
    · simp_all
    · rename_i hp
      obtain ⟨l1, l2, l3⟩ := h.len hp
      simp [hp]
      omega
  · intro t e
    obtain ⟨hp, rfl⟩ := h.ll t e
    simp [F.due, hp]

/-- A read of the upper layer takes from what is waiting as much as it says, so with any reads that take something all texts are taken. -/
theorem C191_taken (hf : Fits txt) {os : List Op} {f : F} (q : run txt c (init c) os = some f) (hi : f.inLl = none) (now : T) (k : Nat) :
    ∃ f', run txt c f [.llBegin 0 now, .llEnd (some k)] = some f' ∧ f'.due = f.due.drop k ∧ f'.reps = f.reps ∧ f'.inLl = none ∧
      f'.left = f.left ∧ f'.expect = f.expect ∧ f'.fin = f.fin ∧ f'.inUl = f.inUl := by
  obtain ⟨g, qg, h⟩ := run_inv hf os (init_inv (txt := txt) (c := c))
  rw [q] at qg
  cases qg
  have hb : ∃ a, (let f1 : F := { f with readCount := f.readCount + 0, sinceR := f.sinceR + 0, got := f.got + 0, expect := if 0 > f.expect then 0 else f.expect - 0 };
      if c.expect ≠ 0 ∧ f1.expect = 0 then f1.setREnd now else f1) = { f with rEnd := a } := by
    simp only [Nat.add_zero, Nat.sub_zero, gt_iff_lt, Nat.not_lt_zero, if_false]
    unfold F.setREnd
    split
    · split <;> exact ⟨_, rfl⟩
    · exact ⟨f.rEnd, rfl⟩
  obtain ⟨a, ha⟩ := hb
  simp only [run, step, hi, if_true]
  unfold F.llBegin
  simp only at ha ⊢
  rw [ha]
  by_cases hp : f.pend = 0
  · simp only [hp, ne_eq, not_true, if_false, Option.bind_some, hi]
    exact ⟨_, rfl, by simp [F.due, hp], rfl, rfl, rfl, rfl, rfl, rfl⟩
  · obtain ⟨l1, l2, l3⟩ := h.len hp
    have hp' : ¬ f.pend > 1024 := by omega
    simp only [hp, ne_eq, not_false_eq_true, if_true, hp', if_false, Option.bind_some]
    refine ⟨_, rfl, ?_⟩
    have hd : f.due.drop k = f.buf.drop (f.pos + k) := by simp [F.due, hp, List.drop_drop]
    rw [hd]
    have hk : (if k > f.pend - f.pos then f.pend - f.pos else k) = min k (f.pend - f.pos) := by split <;> omega
    unfold F.llEnd
    simp only [hk]
    split
    · rename_i he
      have he' : f.pos + min k (f.pend - f.pos) = f.pend := he
      rw [show f.buf.drop (f.pos + k) = [] from List.drop_of_length_le (by omega)]
      exact ⟨by simp [F.due], rfl, rfl, rfl, rfl, rfl, rfl⟩
    · rename_i he
      have he' : ¬ f.pos + min k (f.pend - f.pos) = f.pend := he
      have hm : min k (f.pend - f.pos) = k := by omega
      refine ⟨?_, rfl, rfl, rfl, rfl, rfl, rfl⟩
      unfold F.due
      rw [if_neg (by exact hp)]
      simp only [hm]

/-! ## C192: the end -/

/-- `GE_REMCLOSE` is returned only when everything was written and the final report was made and taken. -/
theorem C192_last (hf : Fits txt) {os : List Op} {f f' : F} {o : Op} (q : run txt c (init c) os = some f) (q' : step txt c f o = some f')
    (h0 : f.rem = false) (h1 : f'.rem = true) : f'.left = 0 ∧ totals f'.reps = 1 ∧ f'.given = texts txt f'.reps := by
  obtain ⟨g, qg, h⟩ := run_inv hf os (init_inv (txt := txt) (c := c))
  rw [q] at qg
  cases qg
  have ec : ∀ now, (f.endCheck txt c now).rem = f.rem := by
    intro now
    unfold F.endCheck
    split
    · rfl
    · have hg : ∃ a b, (f.setREnd now).setWEnd now = { f with rEnd := a, wEnd := b } := by
        unfold F.setREnd F.setWEnd
        split <;> split <;> exact ⟨_, _, rfl⟩
      obtain ⟨a, b, hg⟩ := hg
      rw [hg]
      simp only
      split <;> rfl
  cases o with
  | opened now => cases q'; simp_all
  | ulBegin now =>
    simp only [step] at q'
    split at q'
    · injection q' with q'
      unfold F.ulBegin at q'
      split at q'
      · subst q'; simp_all
      · rename_i hl
        split at q'
        · split at q'
          · subst q'; rw [ec] at h1; simp_all
          · split at q'
            · rename_i hc
              subst q'
              refine ⟨by simp only; omega, ?_, ?_⟩
              · have := h.tot
                simp only at this ⊢
                rw [this, hc.1]; rfl
              · have := h.text
                simp only [F.due, hc.2, if_true, List.append_nil] at this
                exact this.symm
            · subst q'; simp_all
        · subst q'; simp_all
    · cases q'; simp_all
  | ulEnd ans now =>
    exfalso
    simp only [step] at q'
    split at q'
    · cases q'
      rw [(ulEnd_keep ..).2] at h1
      simp_all
    · cases q'; simp_all
  | llBegin n now =>
    exfalso
    simp only [step] at q'
    split at q'
    · rw [(llBegin_keep q').2] at h1
      simp_all
    · cases q'; simp_all
  | llEnd ans =>
    exfalso
    simp only [step] at q'
    split at q'
    · cases q'
      rw [(llEnd_keep ..).2] at h1
      simp_all
    · cases q'; simp_all
  | tick =>
    exfalso
    simp only [step] at q'
    cases q'
    have : (f.tick txt).rem = f.rem := by
      unfold F.tick F.print
      simp only
      split <;> rfl
    rw [this] at h1
    simp_all
  | ioErr now => cases q'; rw [ec] at h1; simp_all
  | cleanup =>
    simp only [step] at q'
    split at q'
    · cases q'; simp [F.cleanup] at h1
    · cases q'; simp_all

theorem run_add (f : F) (a b : List Op) : run txt c f (a ++ b) = (run txt c f a).bind fun g => run txt c g b := by
  induction a generalizing f with
  | nil => rfl
  | cons o a ih =>
    simp only [List.cons_append, run]
    cases step txt c f o with
    | none => rfl
    | some g => exact ih g

/-- When everything is written and came, one of the two pending functions asks for a call, and if the upper layer takes the texts, the
final report and then the end come: the texts are read, a write makes the report, it is read, a write ends. -/
theorem C192_ends (hf : Fits txt) {os : List Op} {f : F} (q : run txt c (init c) os = some f) (hl : f.left = 0) (he : f.expect = 0)
    (hc : c.wlen ≠ 0 ∨ c.expect ≠ 0) (hu : f.inUl = none) (hi : f.inLl = none) (now : T) :
    (f.ulPending = true ∨ f.llPending c = true) ∧
    ∃ f', run txt c f [.llBegin 0 now, .llEnd (some 1024), .ulBegin now, .llBegin 0 now, .llEnd (some 1024), .ulBegin now] = some f' ∧ f'.rem = true := by
  refine ⟨?_, ?_⟩
  · by_cases hp : f.pend = 0
    · right
      simp only [F.llPending, he, hp]
      rcases hc with hc | hc <;> simp <;> omega
    · left
      simp [F.ulPending, hp]
  · have small : ∀ {os : List Op} {g : F}, run txt c (init c) os = some g → g.due.drop 1024 = [] ∧ (g.due = [] → g.pend = 0) := by
      intro os g q
      obtain ⟨g', qg, h⟩ := run_inv hf os (init_inv (txt := txt) (c := c))
      rw [q] at qg
      cases qg
      unfold F.due
      split
      · exact ⟨rfl, fun _ => by assumption⟩
      · rename_i hp
        obtain ⟨l1, l2, l3⟩ := h.len hp
        refine ⟨List.drop_of_length_le (by simp; omega), fun hd => ?_⟩
        have := congrArg List.length hd
        simp at this
        omega
    obtain ⟨g, q1, d1, -, i1, l1, e1, -, u1⟩ := C191_taken hf q hi now 1024
    have qg : run txt c (init c) (os ++ [.llBegin 0 now, .llEnd (some 1024)]) = some g := by rw [run_add, q]; exact q1
    have p1 : g.pend = 0 := (small qg).2 (by rw [d1]; exact (small q).1)
    rw [show ([.llBegin 0 now, .llEnd (some 1024), .ulBegin now, .llBegin 0 now, .llEnd (some 1024), .ulBegin now] : List Op) =
      [.llBegin 0 now, .llEnd (some 1024)] ++ (.ulBegin now :: ([.llBegin 0 now, .llEnd (some 1024)] ++ [.ulBegin now])) from rfl, run_add, q1]
    simp only [Option.bind_some, run]
    obtain ⟨k, q2⟩ : ∃ k, step txt c g (.ulBegin now) = some k := ⟨_, by simp only [step, u1, hu, if_true]; rfl⟩
    have hk : k.fin = true ∧ k.left = 0 ∧ k.inLl = none ∧ k.inUl = none := by
      simp only [step, u1, hu, if_true] at q2
      injection q2 with q2
      subst q2
      unfold F.ulBegin
      rw [l1, hl, e1, he, if_neg (by omega), if_pos hc]
      cases hfin : g.fin with
      | true =>
        simp only [Bool.not_true, Bool.false_eq_true, false_and, if_false, true_and, p1, if_true]
        exact ⟨i1, by rw [u1, hu]⟩
      | false =>
        simp only [Bool.not_false, true_and, if_true]
        unfold F.endCheck
        rw [if_neg (by simp [hfin])]
        have hg : ∃ a b, (g.setREnd now).setWEnd now = { g with rEnd := a, wEnd := b } := by
          unfold F.setREnd F.setWEnd
          split <;> split <;> exact ⟨_, _, rfl⟩
        obtain ⟨a, b, hg⟩ := hg
        rw [hg]
        simp only [hfin, p1, Bool.not_false, and_self, if_true]
        exact ⟨trivial, by simp only [F.print]; rw [l1, hl], i1, by simp only [F.print]; rw [u1, hu]⟩
    rw [q2]
    simp only [Option.bind_some]
    have qk : run txt c (init c) (os ++ [.llBegin 0 now, .llEnd (some 1024)] ++ [.ulBegin now]) = some k := by
      rw [run_add, qg]
      simp only [Option.bind_some, run, q2]
    obtain ⟨m, q3, d3, -, i3, l3, e3, f3, u3⟩ := C191_taken hf qk hk.2.2.1 now 1024
    have qm : run txt c (init c) ((os ++ [.llBegin 0 now, .llEnd (some 1024)] ++ [.ulBegin now]) ++ [.llBegin 0 now, .llEnd (some 1024)]) = some m := by
      rw [run_add, qk]; exact q3
    have p3 : m.pend = 0 := (small qm).2 (by rw [d3]; exact (small qk).1)
    rw [run_add, q3]
    simp only [Option.bind_some, run, step, u3, hk.2.2.2, if_true]
    refine ⟨_, rfl, ?_⟩
    unfold F.ulBegin
    rw [l3, hk.2.1, if_neg (by omega), if_pos hc, f3, hk.1]
    simp [p3]

/-- An error while a report of the timer waits: whatever the upper layer reads after it (only that happens after an error), there is no
final report, though bytes were written. -/
theorem C192_lost_violated (os : List Op) (ho : ∀ o ∈ os, (∃ n t, o = .llBegin n t) ∨ ∃ a, o = .llEnd a) (f : F)
    (q : run one { wlen := 10, wbuf := 6 } (init { wlen := 10, wbuf := 6 }) ([.opened ⟨1, 0⟩, .ulBegin ⟨1, 1⟩, .ulEnd (some 6) ⟨1, 2⟩, .tick, .ioErr ⟨1, 3⟩] ++ os) = some f) :
    f.reps = [.tick 6 0 1] := by
  rw [run_add] at q
  obtain ⟨g, q1, q'⟩ := Option.bind_eq_some_iff.1 q
  clear q
  have hg : g.reps = [.tick 6 0 1] := by
    have : (match run one { wlen := 10, wbuf := 6 } (init { wlen := 10, wbuf := 6 }) [.opened ⟨1, 0⟩, .ulBegin ⟨1, 1⟩, .ulEnd (some 6) ⟨1, 2⟩, .tick, .ioErr ⟨1, 3⟩] with
      | some g => decide (g.reps = [.tick 6 0 1]) | none => false) = true := by decide +kernel
    rw [q1] at this
    simpa using this
  clear q1
  revert ho
  revert q'
  revert g
  induction os with
  | nil => intro g hg q _; cases q; exact hg
  | cons o os ih =>
    intro g hg q ho
    rw [run] at q
    obtain ⟨k, q1, q⟩ := Option.bind_eq_some_iff.1 q
    refine ih k ?_ q (fun o h => ho o (.tail _ h))
    rcases ho o (.head _) with ⟨n, t, rfl⟩ | ⟨a, rfl⟩
    · simp only [step] at q1
      split at q1
      · rw [(llBegin_keep q1).1, hg]
      · cases q1; exact hg
    · simp only [step] at q1
      split at q1
      · cases q1; rw [(llEnd_keep ..).1, hg]
      · cases q1; exact hg

/-- The final report is not the last: the timer makes another one before the end is reported, and so on each second. -/
theorem C192_after_violated :
    (match run one { wlen := 10 } (init { wlen := 10 }) [.opened ⟨1, 0⟩, .ulBegin ⟨1, 1⟩, .ulEnd (some 10) ⟨1, 2⟩, .ulBegin ⟨1, 3⟩, .llBegin 0 ⟨1, 4⟩, .llEnd (some 2), .tick,
        .ulBegin ⟨2, 0⟩] with
     | some f => decide (f.reps = [.total 10 0 ⟨0, 2⟩ ⟨0, 3⟩, .tick 10 0 1] ∧ f.rem = false) | none => false) = true := by decide +kernel

/-! ## C193: the times -/

/-- A time as the system gives it. -/
def T.ok (t : T) : Prop := 0 ≤ t.nsecs ∧ t.nsecs < 1000000000

/-- Nanoseconds. -/
def T.val (t : T) : Int := t.secs * 1000000000 + t.nsecs

theorem norm_spec (s n : Int) : (norm s n).val = s * 1000000000 + n ∧ 0 ≤ (norm s n).nsecs ∧ (n < 1000000000 → (norm s n).nsecs < 1000000000) := by
  induction s, n using norm.induct with
  | case1 s n h ih =>
    rw [norm, if_pos h]
    obtain ⟨h1, h2, h3⟩ := ih
    exact ⟨by rw [h1]; omega, h2, fun _ => h3 (by omega)⟩
  | case2 s n h =>
    rw [norm, if_neg h]
    exact ⟨rfl, by simp only; omega, id⟩

/-- The time since the start is the difference, and a proper time. -/
theorem C193_since {e s : T} (he : e.ok) (hs : s.ok) : (e.since s).val = e.val - s.val ∧ (e.since s).ok := by
  obtain ⟨h1, h2, h3⟩ := norm_spec (e.secs - s.secs) (e.nsecs - s.nsecs)
  unfold T.ok at he hs
  refine ⟨?_, h2, h3 (by omega)⟩
  unfold T.since
  rw [h1]
  unfold T.val
  omega

/-- The milliseconds that are printed behind the point are right to half of one below 999.5.  Missing: see below. -/
theorem C193_ms_partial {t : T} (h : t.ok) (hn : t.nsecs < 999500000) : 0 ≤ t.ms ∧ t.ms ≤ 999 ∧ -500000 ≤ t.ms * 1000000 - t.nsecs ∧ t.ms * 1000000 - t.nsecs ≤ 500000 := by
  unfold T.ok at h
  unfold T.ms
  rw [Int.tdiv_eq_ediv_of_nonneg (by omega)]
  omega

/-- From there on 1000 is printed behind the point, which reads as a tenth of a second. -/
theorem C193_ms_violated {t : T} (h : t.ok) (hn : 999500000 ≤ t.nsecs) : t.ms = 1000 := by
  unfold T.ok at h
  unfold T.ms
  rw [Int.tdiv_eq_ediv_of_nonneg (by omega)]
  omega

/-- The end of the writes is the moment when the last byte was taken; it is what the final report says, whenever that is made. -/
theorem C193_write_end {f f' : F} {now : T} {o n : Nat} (hi : f.inUl = some o) (hw : f.wEnd = none) (q : step txt c f (.ulEnd (some n) now) = some f')
    (hl : f'.left = 0) : f'.wEnd = some now := by
  simp only [step, hi] at q
  injection q with q
  subst q
  unfold F.ulEnd at hl ⊢
  simp only at hl ⊢
  generalize (if n > o then o else n) = k at hl ⊢
  by_cases h0 : f.left - k = 0
  · rw [if_pos h0]
    unfold F.setWEnd
    simp [hw]
  · rw [if_neg h0] at hl
    exact absurd hl h0

@[inherit_doc C193_write_end] theorem C193_write_kept {f f' : F} {o : Op} {t : T} (hw : f.wEnd = some t) (hf : f.fin = false) (q : step txt c f o = some f') :
    f'.wEnd = some t ∨ f' = f.cleanup c ∨ ∃ w r tr, f'.reps = f.reps ++ [.total w r (t.since f.start) tr] := by
  have sw : ∀ {g : F} (now : T), g.wEnd = some t → (g.setWEnd now).wEnd = some t := by
    intro g now h
    unfold F.setWEnd
    rw [h]
    simp [h]
  have sr : ∀ (g : F) (now : T), (g.setREnd now).wEnd = g.wEnd := by
    intro g now
    unfold F.setREnd
    split <;> rfl
  have ec : ∀ now, (f.endCheck txt c now).wEnd = some t ∨ ∃ w r tr, (f.endCheck txt c now).reps = f.reps ++ [.total w r (t.since f.start) tr] := by
    intro now
    unfold F.endCheck
    rw [if_neg (by simp [hf])]
    have hg : ∃ a, (f.setREnd now).setWEnd now = { f with rEnd := a, wEnd := some t } := by
      unfold F.setREnd F.setWEnd
      split
      · exact ⟨some now, by rw [if_neg (by simp [hw])]; rw [← hw]⟩
      · exact ⟨f.rEnd, by rw [if_neg (by simp [hw])]; rw [← hw]⟩
    obtain ⟨a, hg⟩ := hg
    rw [hg]
    simp only
    split
    · exact .inr ⟨_, _, _, rfl⟩
    · exact .inl rfl
  cases o with
  | opened now => cases q; exact .inl hw
  | ulBegin now =>
    simp only [step] at q
    split at q
    · injection q with q
      unfold F.ulBegin at q
      split at q
      · subst q; exact .inl hw
      · split at q
        · split at q
          · subst q
            rcases ec now with h | h
            · exact .inl h
            · exact .inr (.inr h)
          · split at q <;> (subst q; exact .inl hw)
        · subst q; exact .inl hw
    · cases q; exact .inl hw
  | ulEnd ans now =>
    left
    simp only [step] at q
    split at q
    · cases q
      unfold F.ulEnd
      cases ans with
      | none => exact hw
      | some n =>
        simp only
        generalize (if n > _ then _ else n) = k
        split
        · exact sw now hw
        · exact hw
    · cases q; exact hw
  | llBegin n now =>
    left
    simp only [step] at q
    split at q
    · unfold F.llBegin at q
      simp only at q
      generalize (if n > f.expect then 0 else f.expect - n) = e at q
      have k : (if c.expect ≠ 0 ∧ e = 0 then
          ({ f with readCount := f.readCount + n, sinceR := f.sinceR + n, got := f.got + n, expect := e } : F).setREnd now
          else { f with readCount := f.readCount + n, sinceR := f.sinceR + n, got := f.got + n, expect := e }).wEnd = some t := by
        split
        · rw [sr]; exact hw
        · exact hw
      generalize (if c.expect ≠ 0 ∧ e = 0 then
          ({ f with readCount := f.readCount + n, sinceR := f.sinceR + n, got := f.got + n, expect := e } : F).setREnd now
          else { f with readCount := f.readCount + n, sinceR := f.sinceR + n, got := f.got + n, expect := e }) = g at q k
      split at q
      · split at q
        · cases q
        · cases q; exact k
      · cases q; exact k
    · cases q; exact hw
  | llEnd ans =>
    left
    simp only [step] at q
    split at q
    · cases q
      unfold F.llEnd
      cases ans with
      | none => exact hw
      | some n =>
        simp only
        generalize (if n > f.pend - f.pos then f.pend - f.pos else n) = k
        split <;> exact hw
    · cases q; exact hw
  | tick =>
    left
    cases q
    unfold F.tick
    simp only
    split <;> exact hw
  | ioErr now =>
    cases q
    rcases ec now with h | h
    · exact .inl h
    · exact .inr (.inr h)
  | cleanup =>
    simp only [step] at q
    split at q
    · cases q; exact .inr (.inl rfl)
    · cases q; exact .inl hw

/-- 1.9996 seconds are printed as 1.1000. -/
example : (T.since ⟨12, 199600000⟩ ⟨10, 200000000⟩) = ⟨1, 999600000⟩ ∧ (T.since ⟨12, 199600000⟩ ⟨10, 200000000⟩).ms = 1000 := by decide +kernel

/-! ## C194: when it is called -/

/-- If no call is asked for and there was no error, a call would write nothing, print nothing and end nothing. -/
theorem C194_asked_partial {f : F} (h0 : f.left ≤ c.wlen) (hx : f.fin = true → f.left = 0 ∧ f.expect = 0) (hp : f.llPending c = false) (now : T) :
    (f.ulBegin txt c now).inUl = f.inUl ∧ (f.ulBegin txt c now).reps = f.reps ∧ (f.ulBegin txt c now).rem = f.rem := by
  unfold F.llPending at hp
  simp only [decide_eq_false_iff_not] at hp
  unfold F.ulBegin
  cases hf : f.fin with
  | true =>
    obtain ⟨x1, x2⟩ := hx hf
    rw [hf, x2] at hp
    rw [if_neg (by omega)]
    split
    · simp only [Bool.not_true, Bool.false_eq_true, false_and, if_false, true_and]
      split
      · exfalso
        rename_i hc hpe
        apply hp
        rw [hpe]
        simp
        omega
      · exact ⟨rfl, rfl, rfl⟩
    · exact ⟨rfl, rfl, rfl⟩
  | false =>
    rw [hf] at hp
    have hw : c.wlen = 0 := by
      by_cases hw : c.wlen = 0
      · exact hw
      · exact absurd (.inl ⟨by omega, by simp⟩) hp
    rw [if_neg (by omega)]
    split
    · rename_i hc
      split
      · rename_i hd
        have hpe : f.pend ≠ 0 := fun e => hp (.inr ⟨by omega, hd.2, e⟩)
        unfold F.endCheck
        rw [if_neg (by simp [hf])]
        have hg : ∃ a b, (f.setREnd now).setWEnd now = { f with rEnd := a, wEnd := b } := by
          unfold F.setREnd F.setWEnd
          split <;> split <;> exact ⟨_, _, rfl⟩
        obtain ⟨a, b, hg⟩ := hg
        rw [hg]
        simp only
        rw [if_neg (by simp [hpe])]
        exact ⟨rfl, rfl, rfl⟩
      · simp
    · exact ⟨rfl, rfl, rfl⟩

/-- While it waits for what is to come, calls are asked for that do nothing at all. -/
theorem C194_idle_violated {f : F} (hw : 0 < c.wlen) (hl : f.left = 0) (he : 0 < f.expect) (hf : f.fin = false) (now : T) :
    f.llPending c = true ∧ f.ulBegin txt c now = f := by
  refine ⟨by simp [F.llPending, hf]; omega, ?_⟩
  unfold F.ulBegin
  rw [if_neg (by omega), if_pos (.inl (by omega)), hf, if_neg (by simp; omega), if_neg (by simp)]

/-- With `writebuf=0` nothing is ever written: each call offers no bytes. -/
theorem C194_no_buffer_violated {f : F} (hw : c.wbuf = 0) (hl : 0 < f.left) (n : Nat) (t u : T) (hi : f.inUl = none) :
    ∃ f', run txt c f [.ulBegin t, .ulEnd (some n) u] = some f' ∧ f'.left = f.left ∧ f.inUl = f'.inUl := by
  simp only [run, step, hi, if_true, Option.bind_some]
  unfold F.ulBegin
  rw [if_pos (by omega), hw]
  simp only [Nat.min_zero, Option.bind_some]
  refine ⟨_, rfl, ?_⟩
  unfold F.ulEnd
  have : (if n > 0 then 0 else n) = 0 := by split <;> omega
  simp only [this, Nat.sub_zero]
  rw [if_neg (by omega)]
  exact ⟨rfl, rfl⟩

theorem write_eq {wbuf : Nat} {takes : Nat → Nat} {b : B} (h : 0 < b.left) :
    b.write wbuf takes = { b with left := b.left - min (min b.left wbuf) (takes (min b.left wbuf)),
                                  can := b.can && !(decide (min (min b.left wbuf) (takes (min b.left wbuf)) < min b.left wbuf)) } := by
  unfold B.write
  exact if_neg (by omega)

/-- If the lower layer does not take all that is offered it is asked to call again. -/
theorem C194_again_partial (wbuf : Nat) (takes : Nat → Nat) (b : B) (hw : 0 < wbuf) (ht : ∀ n, 0 < n → takes n < n) (hl : 0 < b.left) :
    (b.ready wbuf takes).en = true := by
  have h1 := ht (min b.left wbuf) (by omega)
  have h2 : min (min b.left wbuf) (takes (min b.left wbuf)) < min b.left wbuf := by omega
  unfold B.ready
  rw [write_eq (by exact hl)]
  simp only [h2, decide_true, Bool.not_true, Bool.and_false]
  rfl

/-- If it takes all, only two buffers are written and it is not asked again: the rest waits, although the lower layer would take it. -/
theorem C194_stall_violated (wbuf : Nat) (b : B) (hl : 2 * wbuf < b.left) (hw : 0 < wbuf) :
    b.ready wbuf id = { left := b.left - 2 * wbuf, can := true, en := false } := by
  have h1 : min b.left wbuf = wbuf := by omega
  have h2 : min (b.left - wbuf) wbuf = wbuf := by omega
  unfold B.ready B.push
  rw [write_eq (by simp only; omega)]
  simp only [id, Nat.min_self, h1, Nat.lt_irrefl, decide_false, Bool.not_false, Bool.and_self, if_true]
  rw [write_eq (by simp only; omega)]
  simp only [id, Nat.min_self, h2, Nat.lt_irrefl, decide_false, Bool.not_false, Bool.and_self, B.enable, B.mk.injEq, Bool.not_true, and_true]
  omega

/-- And then one buffer for each second. -/
theorem C194_slow_violated (wbuf : Nat) (hw : 0 < wbuf) (k : Nat) (b : B) (hc : b.can = true) (he : b.en = false) :
    (Nat.repeat (B.timer wbuf id) k b) = { b with left := b.left - k * wbuf } := by
  induction k with
  | zero => cases b; simp [Nat.repeat]
  | succ k ih =>
    rw [Nat.repeat, ih]
    unfold B.timer B.push B.write B.enable
    simp only [id, Nat.min_self, hc, if_true]
    have e : (k + 1) * wbuf = k * wbuf + wbuf := by rw [Nat.add_mul]; omega
    split
    · rename_i h0
      simp only [hc, B.mk.injEq, he, Bool.not_true, and_true]
      omega
    · simp only [Nat.lt_irrefl, decide_false, Bool.not_false, Bool.and_self, B.mk.injEq, he, Bool.not_true, and_true, hc]
      omega

/-- 1 MB in buffers of 1024 bytes: after the first call 998 kB are left, and nobody asks for them. -/
example : (({ left := 1000000 } : B).ready 1024 id) = { left := 997952, can := true, en := false } := by decide

end Gensio.Perf
