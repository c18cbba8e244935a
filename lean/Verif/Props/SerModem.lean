import Verif.Model.SerModem

/-!
# The modem state of the serial device gensio: C214
-/

namespace Gensio.SerModem

/-- Only the bits 4 to 7 are used, as the operating system functions do. -/
def Lines (m : Nat) : Prop := ∀ i, m.testBit i = true → 4 ≤ i ∧ i < 8

theorem changed_bit (m last i : Nat) :
    (changed m last).testBit i = (m.testBit i || (m.testBit (i + 4) ^^ last.testBit (i + 4))) := by
  simp [changed, Nat.testBit_or, Nat.testBit_shiftRight, Nat.testBit_xor, Nat.add_comm]

theorem low_bits (m : Nat) : m &&& 15 ≠ 0 ↔ ∃ i, i < 4 ∧ m.testBit i = true := by
  constructor
  · intro h
    apply Classical.byContradiction
    intro hn
    apply h
    apply Nat.eq_of_testBit_eq
    intro i
    have h15 : (15 : Nat).testBit i = decide (i < 4) := by
      have : (15 : Nat) = 2 ^ 4 - 1 := rfl
      rw [this, Nat.testBit_two_pow_sub_one]
    rw [Nat.testBit_and, h15]
    simp only [Nat.zero_testBit]
    by_cases hi : i < 4
    · have : m.testBit i = false := by
        cases hb : m.testBit i with
        | false => rfl
        | true => exact absurd ⟨i, hi, hb⟩ hn
      simp [this]
    · simp [hi]
  · rintro ⟨i, hi, hb⟩ h0
    have h15 : (15 : Nat).testBit i = decide (i < 4) := by
      have : (15 : Nat) = 2 ^ 4 - 1 := rfl
      rw [this, Nat.testBit_two_pow_sub_one]
    have : (m &&& 15).testBit i = true := by rw [Nat.testBit_and, hb, h15]; simp [hi]
    rw [h0] at this
    simp at this

/-- The four lines: CTS, DSR, RI, CD. -/
def line (m i : Nat) : Bool := m.testBit (i + 4)

/-- A look, the callbacks, the event and the rest. -/
def cycle (s : S) (m : Nat) : List Ev := [.fire, .look (some m)] ++ List.replicate (s.cbs.length + 1) .next ++ [.done, .leave]

theorem steps_append (s : S) (a b : List Ev) :
    s.steps (a ++ b) = (((s.steps a).1.steps b).1, (s.steps a).2 ++ ((s.steps a).1.steps b).2) := by
  induction a generalizing s with
  | nil => simp [S.steps]
  | cons e a ih => simp [S.steps, ih, List.append_assoc]

theorem calls_steps (cs : List Nat) (s : S) (m : Nat) (f : Bool) (h : s.ph = .calls cs m f) :
    s.steps (List.replicate (cs.length + 1) .next) =
      ({ s with ph := .restart }, cs.map .told ++ if f ∨ m &&& 15 ≠ 0 then [.event m] else []) := by
  induction cs generalizing s with
  | nil => simp [S.steps, S.step, h]
  | cons c cs ih =>
    have h1 : s.step .next = ({ s with ph := .calls cs m f }, [.told c]) := by simp [S.step, h]
    rw [List.length_cons, List.replicate_succ]
    simp only [S.steps, h1]
    rw [ih { s with ph := .calls cs m f } rfl]
    simp

theorem cycle_eq (s : S) (m : Nat) (ht : s.timer = true) (ho : s.opn = true) (hp : s.ph = .idle) :
    s.steps (cycle s m) =
      ({ s with timer := s.mask != 0, last := changed m s.last &&& s.mask, sent := true, cbs := [], ph := .idle },
       s.cbs.map .told ++ if s.sent = false ∨ changed m s.last &&& 15 ≠ 0 then [.event (changed m s.last)] else []) := by
  simp only [cycle]
  rw [steps_append, steps_append]
  have h1 : s.steps [.fire, .look (some m)] =
      ({ s with timer := false, last := changed m s.last &&& s.mask, sent := true, cbs := [], ph := .calls s.cbs (changed m s.last) (!s.sent) }, []) := by
    simp [S.steps, S.step, ht, ho, hp]
  rw [h1]
  simp only
  rw [calls_steps s.cbs _ (changed m s.last) (!s.sent) rfl]
  simp [S.steps, S.step]

/-- Bits above the lines are not used. -/
def Low (m : Nat) : Prop := ∀ i, 8 ≤ i → m.testBit i = false

/-- **C214**: one look at the lines: every callback that waits is called once
and in order, then the state is sent if it is the first since the mask was set
or if a line is not as it was remembered; the state has the lines, and one bit
for each line that is not as it was remembered; what is remembered are the
lines in the mask. -/
theorem C214_look (s : S) (m : Nat) (ht : s.timer = true) (ho : s.opn = true) (hp : s.ph = .idle) (hm : Lines m)
    (hl : Low s.last) :
    ∃ s' v, s.steps (cycle s m) = (s', s.cbs.map Out.told ++
        if s.sent = false ∨ (∃ i : Fin 4, line m i ≠ line s.last i) then [Out.event v] else []) ∧
      (∀ i, i < 4 → line v i = line m i ∧ v.testBit i = (line m i != line s.last i)) ∧
      (∀ i, i < 4 → line s'.last i = (line m i && line s.mask i)) ∧ Low s'.last ∧
      s'.mask = s.mask ∧ s'.opn = true ∧ s'.ph = .idle ∧ s'.sent = true ∧ s'.cbs = [] ∧ s'.timer = (s.mask != 0) := by
  have hlow : ∀ i, i < 4 → m.testBit i = false := by
    intro i hi
    cases hb : m.testBit i with
    | false => rfl
    | true => have := (hm i hb).1; omega
  have hup : ∀ i, 8 ≤ i → m.testBit i = false := by
    intro i hi
    cases hb : m.testBit i with
    | false => rfl
    | true => have := (hm i hb).2; omega
  have hhigh : ∀ i, i < 4 → (changed m s.last).testBit i = (line m i != line s.last i) := by
    intro i hi
    rw [changed_bit, hlow i hi]
    simp only [line, Bool.false_or]
  have hline : ∀ i, i < 4 → line (changed m s.last) i = line m i := by
    intro i hi
    simp only [line]
    rw [changed_bit, hup (i + 4 + 4) (by omega), hl (i + 4 + 4) (by omega)]
    simp
  have hc : changed m s.last &&& 15 ≠ 0 ↔ ∃ i : Fin 4, line m i ≠ line s.last i := by
    rw [low_bits]
    constructor
    · rintro ⟨i, hi, hb⟩
      exact ⟨⟨i, hi⟩, by rw [hhigh i hi] at hb; simpa using hb⟩
    · rintro ⟨i, hb⟩
      exact ⟨i.1, i.2, by rw [hhigh i.1 i.2]; simpa using hb⟩
  refine ⟨{ s with timer := s.mask != 0, last := changed m s.last &&& s.mask, sent := true, cbs := [], ph := .idle },
    changed m s.last, ?_, ?_, ?_, ?_, rfl, ho, rfl, rfl, rfl, rfl⟩
  · rw [cycle_eq s m ht ho hp]
    simp only [hc]
  · intro i hi
    exact ⟨hline i hi, hhigh i hi⟩
  · intro i hi
    have := hline i hi
    simp only [line] at this ⊢
    rw [Nat.testBit_and, this]
  · intro i hi
    simp only
    rw [Nat.testBit_and, changed_bit, hup i hi, hup (i + 4) (by omega), hl (i + 4) (by omega)]
    simp

/-- Looks one after the other. -/
def looks : S → List Nat → S × List Out
  | s, [] => (s, [])
  | s, m :: ms =>
    let r := s.steps (cycle s m)
    let t := looks r.1 ms
    (t.1, r.2 ++ t.2)

/-- How many of the looks find a line other than the look before. -/
def turns : Nat → List Nat → Nat
  | _, [] => 0
  | l, m :: ms => (if ∃ i : Fin 4, line m i ≠ line l i then 1 else 0) + turns m ms

/-- **C214, partial**: as long as all lines are in the mask, the state is sent
exactly for those looks that find a line other than the look before.  Partial:
the mask must have all four lines; see `C214_masked_violated`. -/
theorem C214_turns_partial (ms : List Nat) (s : S) (l : Nat) (ht : s.timer = true) (ho : s.opn = true)
    (hp : s.ph = .idle) (hs : s.sent = true) (hcb : s.cbs = []) (hl : Low s.last)
    (hmask : ∀ i, i < 4 → line s.mask i = true) (hlast : ∀ i, i < 4 → line s.last i = line l i)
    (hms : ∀ m ∈ ms, Lines m) :
    (looks s ms).2.length = turns l ms := by
  induction ms generalizing s l with
  | nil => rfl
  | cons m ms ih =>
    obtain ⟨s', v, h1, -, h3, h4, h5, h6, h7, h8, h9, h10⟩ :=
      C214_look s m ht ho hp (hms m (List.mem_cons_self ..)) hl
    simp only [looks, turns, h1]
    have hm0 : s.mask ≠ 0 := by
      intro h0
      have := hmask 0 (by omega)
      rw [h0] at this
      simp [line] at this
    have := ih s' m (by rw [h10]; simpa using hm0) h6 h7 h8 h9 h4 (by rw [h5]; exact hmask)
      (by intro i hi; rw [h3 i hi, hmask i hi]; simp) (fun x hx => hms x (List.mem_cons_of_mem _ hx))
    rw [List.length_append, this, hcb, hs]
    have he : (∃ i : Fin 4, line m i ≠ line s.last i) ↔ ∃ i : Fin 4, line m i ≠ line l i := by
      constructor
      · rintro ⟨i, hi⟩; exact ⟨i, by rw [← hlast i.1 i.2]; exact hi⟩
      · rintro ⟨i, hi⟩; exact ⟨i, by rw [hlast i.1 i.2]; exact hi⟩
    simp only [he]
    by_cases hx : ∃ i : Fin 4, line m i ≠ line l i <;> simp [hx]

/-- An opened device whose mask has all lines, after the first look. -/
def ready : S := (init.steps ([.open] ++ [.fire, .look (some 0), .next, .done, .leave])).1

example : turns 0 [0, 128, 128, 144, 144, 16] = 3 ∧
    (looks ready [0, 128, 128, 144, 144, 16]).2 = [.event 0x88, .event 0x91, .event 0x18] := by decide +kernel

/-- **C214 is violated**: only the line CTS is in the mask, and the line CD is
on and never changes: it is remembered as off, so that every look sends the
state, with a bit that says that CD has changed. -/
theorem C214_masked_violated (k : Nat) :
    (looks (ready.steps [.setMask 16 none]).1 (List.replicate (k + 1) 128)).2 =
      List.replicate (k + 1) (.event 0x88) := by
  have h1 : ∀ s : S, s.timer = true → s.opn = true → s.ph = .idle → s.cbs = [] → s.mask = 16 → s.last = 0 →
      (looks s (List.replicate (k + 1) 128)).2 = List.replicate (k + 1) (.event 0x88) := by
    induction k with
    | zero =>
      intro s a1 a2 a3 a4 a5 a6
      simp only [looks, List.replicate]
      rw [cycle_eq s 128 a1 a2 a3, a4, a5, a6]
      have : changed 128 0 = 0x88 := by decide
      simp [this]
    | succ k ih =>
      intro s a1 a2 a3 a4 a5 a6
      rw [List.replicate_succ, List.replicate_succ (n := k + 1)]
      simp only [looks]
      rw [cycle_eq s 128 a1 a2 a3, a4, a5, a6]
      have hc : changed 128 0 = 0x88 := by decide
      have := ih { s with timer := true, mask := 16, last := 0, sent := true, cbs := [], ph := .idle } rfl a2 rfl rfl rfl rfl
      have h2 : (136 &&& 16 : Nat) = 0 := by decide
      simp only [a5] at this ⊢
      simp [hc, h2, this]
  exact h1 _ (by decide +kernel) (by decide +kernel) (by decide +kernel) (by decide +kernel) (by decide +kernel) (by decide +kernel)

/-! ## The callbacks of the mask -/

/-- Callbacks that are left to call. -/
def waiting (s : S) (k : Nat) : Nat :=
  s.cbs.count k + match s.ph with
    | .calls cs _ _ => cs.count k
    | _ => 0

/-- How often a mask was set with the callback. -/
def asked (k : Nat) (es : List Ev) : Nat :=
  (es.map fun e => match e with
    | .setMask _ (some j) => if j = k then 1 else 0
    | _ => 0).sum

theorem told_step (s : S) (e : Ev) (k : Nat) :
    (s.step e).2.count (.told k) + waiting (s.step e).1 k = waiting s k + asked k [e] := by
  cases e with
  | setMask v j =>
    cases j with
    | none => simp [S.step, S.setMask, waiting, asked]
    | some j =>
      by_cases hjk : j = k
      · subst hjk; simp [S.step, S.setMask, waiting, asked]; omega
      · simp [S.step, S.setMask, waiting, asked, hjk]
  | «open» => simp [S.step, S.setMask, waiting, asked]
  | close => simp [S.step, waiting, asked]
  | fire =>
    simp only [S.step]
    split
    · split
      · simp [waiting, asked]
      · rename_i hn
        have : s.ph = .idle := by
          apply Classical.byContradiction
          intro h; exact hn (.inl h)
        simp [waiting, asked, this]
    · simp [asked]
  | look v =>
    simp only [S.step]
    split
    · rename_i hp
      split
      · simp [waiting, asked, hp]
      · simp [waiting, asked, hp]
    · simp [asked]
  | next =>
    simp only [S.step]
    split
    · rename_i c cs m f hp
      by_cases hck : c = k
      · subst hck; simp [waiting, asked, hp]; omega
      · simp [waiting, asked, hp, hck, List.count_cons]
    · rename_i m f hp
      simp only [waiting, hp]
      split <;> simp [asked]
    · simp [asked]
  | done =>
    simp only [S.step]
    split
    · rename_i hp; simp [waiting, asked, hp]
    · simp [asked]
  | leave =>
    simp only [S.step]
    split
    · rename_i hp; simp [waiting, asked, hp]
    · simp [asked]

/-- **C214**: the callback of a mask is called exactly once, or is left to
call. -/
theorem C214_told (es : List Ev) (k : Nat) :
    (init.steps es).2.count (.told k) + waiting (init.steps es).1 k = asked k es := by
  have : ∀ s : S, (s.steps es).2.count (.told k) + waiting (s.steps es).1 k = waiting s k + asked k es := by
    induction es with
    | nil => intro s; simp [S.steps, asked]
    | cons e es ih =>
      intro s
      have h1 := told_step s e k
      have h2 := ih (s.step e).1
      simp only [S.steps, List.count_append]
      simp only [asked, List.map_cons, List.sum_cons, List.map_nil, List.sum_nil] at h1 h2 ⊢
      omega
  have := this init
  simpa [waiting, init] using this

/-- **C214, partial**: while the device is open and the mask is not 0, a look
is under way or the timer runs for one.  Partial: the timer must not fire in
the short stretch after it was started again and before the look has ended, in
another thread; see `C214_stuck_violated`. -/
theorem C214_progress_partial (es : List Ev)
    (hf : ∀ a b, es = a ++ .fire :: b → (init.steps a).1.ph ≠ .leaving)
    (ho : (init.steps es).1.opn = true) (hm : (init.steps es).1.mask ≠ 0) :
    (init.steps es).1.timer = true ∨ (init.steps es).1.ph ≠ .idle := by
  have step : ∀ (s : S) (e : Ev), (e = .fire → s.ph ≠ .leaving) →
      (s.opn = true → s.mask ≠ 0 → s.timer = true ∨ (s.ph ≠ .idle ∧ s.ph ≠ .leaving)) →
      ((s.step e).1.opn = true → (s.step e).1.mask ≠ 0 →
        (s.step e).1.timer = true ∨ ((s.step e).1.ph ≠ .idle ∧ (s.step e).1.ph ≠ .leaving)) := by
    intro s e he h
    cases e with
    | setMask v j => simp [S.step, S.setMask]
    | «open» => simp [S.step, S.setMask]
    | close => simp [S.step]
    | fire => have := he rfl; simp only [S.step]; grind
    | look v => simp only [S.step]; grind
    | next => simp only [S.step]; grind
    | done => simp only [S.step]; grind
    | leave => simp only [S.step]; grind
  have all : ∀ (es : List Ev) (s : S), (∀ a b, es = a ++ .fire :: b → (s.steps a).1.ph ≠ .leaving) →
      (s.opn = true → s.mask ≠ 0 → s.timer = true ∨ (s.ph ≠ .idle ∧ s.ph ≠ .leaving)) →
      ((s.steps es).1.opn = true → (s.steps es).1.mask ≠ 0 →
        (s.steps es).1.timer = true ∨ ((s.steps es).1.ph ≠ .idle ∧ (s.steps es).1.ph ≠ .leaving)) := by
    intro es
    induction es with
    | nil => intro s _ h; exact h
    | cons e es ih =>
      intro s hf h
      exact ih _ (fun a b hab => hf (e :: a) b (by rw [hab]; rfl))
        (step s e (fun he => hf [] es (by rw [he]; rfl)) h)
  rcases all es init hf (by simp [init]) ho hm with h | h
  · exact .inl h
  · exact .inr h.1

/-- **C214**: the first look after a mask was set sends the state, whatever the
lines are, after the callbacks, that of the mask last. -/
theorem C214_first (s : S) (v m : Nat) (k : Option Nat) (ho : s.opn = true) (hp : s.ph = .idle) :
    ∃ s1 x, (s.setMask v k).steps (cycle (s.setMask v k) m) = (s1, (s.cbs ++ k.toList).map Out.told ++ [.event x]) := by
  rw [cycle_eq (s.setMask v k) m rfl ho hp]
  exact ⟨_, _, by simp [S.setMask]; exact ⟨rfl, rfl⟩⟩

example : ((ready.setMask 16 (some 7)).steps (cycle (ready.setMask 16 (some 7)) 0)).2 = [.told 7, .event 0] := by decide +kernel

/-- **C214, partial**: while the device is open and a callback waits, its look
has begun or the timer runs for it, also for a mask of 0.  Partial: no look
must fail and the timer must not fire while a look is under way; see
`C214_lost_violated`. -/
theorem C214_callback_partial (es : List Ev)
    (hf : ∀ a b, es = a ++ .fire :: b → (init.steps a).1.ph = .idle) (hl : Ev.look none ∉ es)
    (ho : (init.steps es).1.opn = true) (hc : (init.steps es).1.cbs ≠ []) :
    (init.steps es).1.timer = true ∨ (init.steps es).1.ph = .reading := by
  have step : ∀ (s : S) (e : Ev), (e = .fire → s.ph = .idle) → e ≠ .look none →
      (s.opn = true → s.cbs ≠ [] → s.timer = true ∨ s.ph = .reading) →
      ((s.step e).1.opn = true → (s.step e).1.cbs ≠ [] → (s.step e).1.timer = true ∨ (s.step e).1.ph = .reading) := by
    intro s e he hl h
    cases e with
    | setMask v j => simp [S.step, S.setMask]
    | «open» => simp [S.step, S.setMask]
    | close => simp [S.step]
    | fire => have := he rfl; simp only [S.step]; grind
    | look v => simp only [S.step]; grind
    | next => simp only [S.step]; grind
    | done => simp only [S.step]; grind
    | leave => simp only [S.step]; grind
  have all : ∀ (es : List Ev) (s : S), (∀ a b, es = a ++ .fire :: b → (s.steps a).1.ph = .idle) → Ev.look none ∉ es →
      (s.opn = true → s.cbs ≠ [] → s.timer = true ∨ s.ph = .reading) →
      ((s.steps es).1.opn = true → (s.steps es).1.cbs ≠ [] → (s.steps es).1.timer = true ∨ (s.steps es).1.ph = .reading) := by
    intro es
    induction es with
    | nil => intro s _ _ h; exact h
    | cons e es ih =>
      intro s hf hl h
      exact ih _ (fun a b hab => hf (e :: a) b (by rw [hab]; rfl)) (fun hm => hl (List.mem_cons_of_mem _ hm))
        (step s e (fun he => hf [] es (by rw [he]; rfl)) (fun he => hl (by simp [he])) h)
  exact all es init hf hl (by simp [init]) ho hc

/-- Nothing will look at the lines any more. -/
def Dead (s : S) : Prop := s.timer = false ∧ s.ph = .idle

theorem dead_steps (es : List Ev) (s : S) (hd : Dead s) (he : ∀ v k, Ev.setMask v k ∉ es) (ho : Ev.open ∉ es) (k : Nat) :
    Out.told k ∉ (s.steps es).2 := by
  induction es generalizing s with
  | nil => simp [S.steps]
  | cons e es ih =>
    have h1 : Dead (s.step e).1 ∧ (s.step e).2 = [] := by
      obtain ⟨d1, d2⟩ := hd
      cases e with
      | setMask v j => exact absurd (List.mem_cons_self ..) (he v j)
      | «open» => exact absurd (List.mem_cons_self ..) ho
      | close => simp [S.step, Dead, d2]
      | fire => simp [S.step, Dead, d1, d2]
      | look v => simp [S.step, Dead, d1, d2]
      | next => simp [S.step, Dead, d1, d2]
      | done => simp [S.step, Dead, d1, d2]
      | leave => simp [S.step, Dead, d1, d2]
    simp only [S.steps, h1.2, List.nil_append]
    exact ih _ h1.1 (fun v k hm => he v k (List.mem_cons_of_mem _ hm)) (fun hm => ho (List.mem_cons_of_mem _ hm))

/-- **C214 is violated**: the callback of a mask that was accepted is never
called, short of another mask or an open, if the mask is set while the device
is closed, if it is 0 and the look fails, or if it is 0 and the timer fires
while another thread reports the state. -/
theorem C214_lost_violated :
    ∀ pre ∈ [[Ev.setMask 255 (some 1), .fire],
      [.open, .fire, .look (some 0), .next, .done, .leave, .setMask 0 (some 1), .fire, .look none, .done, .leave],
      [.open, .fire, .look (some 0), .setMask 0 (some 1), .fire, .next, .done, .leave]],
    waiting (init.steps pre).1 1 = 1 ∧
    ∀ es, (∀ v k, Ev.setMask v k ∉ es) → Ev.open ∉ es → Out.told 1 ∉ ((init.steps pre).1.steps es).2 := by
  intro pre hp
  simp only [List.mem_cons, List.not_mem_nil, or_false] at hp
  rcases hp with hp | hp | hp <;> subst hp <;>
    exact ⟨by decide +kernel, fun es he ho => dead_steps es _ ⟨by decide +kernel, by decide +kernel⟩ he ho 1⟩

/-- **C214 is violated**: the mask is set after a look has started the timer
again and before it ends, and the timer fires at once in another thread: the
device is open and the mask is 255, but nothing looks at the lines any more
and the callback is never called. -/
theorem C214_stuck_violated :
    let s := (init.steps [.open, .fire, .look (some 0), .next, .done, .setMask 255 (some 1), .fire, .leave]).1
    s.opn = true ∧ s.mask = 255 ∧ waiting s 1 = 1 ∧ Dead s ∧
    ∀ es, (∀ v k, Ev.setMask v k ∉ es) → Ev.open ∉ es → Out.told 1 ∉ (s.steps es).2 :=
  ⟨by decide +kernel, by decide +kernel, by decide +kernel, ⟨by decide +kernel, by decide +kernel⟩,
    fun es he ho => dead_steps es _ ⟨by decide +kernel, by decide +kernel⟩ he ho 1⟩

/-- The callbacks of two masks, told in order and then the state. -/
example : (init.steps ([.open, .setMask 255 (some 3), .setMask 16 (some 4)] ++ [.fire, .look (some 144), .next, .next,
    .next, .done, .leave])).2 = [.told 3, .told 4, .event 0x99] := by decide +kernel

end Gensio.SerModem
