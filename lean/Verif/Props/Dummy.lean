import Verif.Model.Dummy

/-!
# The dummy accepter: C211
-/

namespace Gensio.Dummy

/-- 1 for true. -/
def n (b : Bool) : Nat := if b then 1 else 0

@[simp] theorem n_true : n true = 1 := rfl
@[simp] theorem n_false : n false = 0 := rfl

/-! ## Callbacks are not called too often -/

/-- A report of the shutdown with callback `k` is due. -/
def owed (s : S) (k : Nat) : Nat := if s.st = .inShutdown ∧ s.sdone = some k then 1 else 0

/-- A report of the enable with callback `k` is due. -/
def owedE (s : S) (k : Nat) : Nat := if s.edone = some k then 1 else 0

/-- How often a shutdown with callback `k` was accepted. -/
def asked (k : Nat) : S → List Ev → Nat
  | _, [] => 0
  | s, e :: es =>
    (if e = .shutdown (some k) ∧ s.st = .enabled then 1 else 0) +
    match s.step e with
    | none => 0
    | some r => asked k r.1 es

/-- How often an enable with callback `k` was accepted. -/
def askedE (k : Nat) : S → List Ev → Nat
  | _, [] => 0
  | s, e :: es =>
    (if e = .enable (some k) ∧ s.edone = none then 1 else 0) +
    match s.step e with
    | none => 0
    | some r => askedE k r.1 es

theorem deref_same (s s' : S) (o : List Out) (h : s.deref = some (s', o)) :
    s'.st = s.st ∧ s'.sdone = s.sdone ∧ s'.edone = s.edone ∧ (∀ k, o.count (.shut k) = 0) ∧ (∀ k, o.count (.enab k) = 0) := by
  simp only [S.deref] at h
  split at h
  · simp at h
  · split at h <;>
    · simp only [Option.some.injEq, Prod.mk.injEq] at h
      obtain ⟨h1, h2⟩ := h
      subst h1; subst h2
      simp

theorem op_same (s s' : S) (h : s.op = some s') :
    s'.st = s.st ∧ s'.sdone = s.sdone ∧ s'.edone = s.edone := by
  simp only [S.op] at h
  grind

theorem tail_count (s s' : S) (o : List Out) (k : Nat) (h : s.tail = some (s', o)) :
    o.count (.shut k) + owed s' k = owed s k ∧ o.count (.enab k) = 0 ∧ s'.edone = s.edone := by
  simp only [S.tail] at h
  split at h
  · rename_i hs
    split at h
    · rename_i j hj
      simp only [Option.some.injEq, Prod.mk.injEq] at h
      obtain ⟨h1, h2⟩ := h
      subst h1; subst h2
      simp only [owed, hs, hj]
      by_cases hjk : j = k
      · subst hjk; simp
      · simp [hjk, List.count_cons]
    · rename_i hn
      obtain ⟨h1, h2, h3, h4, h5⟩ := deref_same _ _ _ h
      simp only at h1 h2 h3
      simp [owed, h1, hn, h3, h4, h5]
  · rename_i hs
    obtain ⟨h1, h2, h3, h4, h5⟩ := deref_same _ _ _ h
    simp [owed, h1, hs, h3, h4, h5]

/-- One step: what is reported and due is what was due and asked for; only a
refused startup takes away. -/
theorem step_count (s s' : S) (e : Ev) (o : List Out) (k : Nat) (h : s.step e = some (s', o)) :
    (o.count (.shut k) + owed s' k ≤ owed s k + (if e = .shutdown (some k) ∧ s.st = .enabled then 1 else 0)) ∧
    (¬ (e = .startup ∧ s.st = .inShutdown) →
      o.count (.shut k) + owed s' k = owed s k + (if e = .shutdown (some k) ∧ s.st = .enabled then 1 else 0)) ∧
    o.count (.enab k) + owedE s' k = owedE s k + (if e = .enable (some k) ∧ s.edone = none then 1 else 0) := by
  cases e with
  | startup =>
    simp only [S.step, S.startup, Option.some.injEq, Prod.mk.injEq] at h
    obtain ⟨h1, h2⟩ := h
    subst h1; subst h2
    simp only [owed, owedE]
    grind
  | shutdown j =>
    simp only [S.step, S.shutdown] at h
    split at h
    · rename_i hs
      simp only [Option.some.injEq, Prod.mk.injEq] at h
      obtain ⟨h1, h2⟩ := h
      subst h1; subst h2
      simp [hs]
    · rename_i hs
      have hs : s.st = .enabled := by simpa using hs
      split at h
      · simp at h
      · rename_i x hx
        obtain ⟨x1, x2, x3⟩ := op_same _ _ hx
        simp only [Option.some.injEq, Prod.mk.injEq] at h
        obtain ⟨h1, h2⟩ := h
        subst h1; subst h2
        simp [owed, owedE, x1, x2, x3, hs]
  | enable j =>
    simp only [S.step, S.enable] at h
    split at h
    · rename_i hs
      simp only [Option.some.injEq, Prod.mk.injEq] at h
      obtain ⟨h1, h2⟩ := h
      subst h1; subst h2
      have : s.edone ≠ none := by intro hn; simp [hn] at hs
      simp [this]
    · rename_i hs
      have hs : s.edone = none := by simpa using hs
      split at h
      · split at h
        · simp at h
        · rename_i x hx
          obtain ⟨x1, x2, x3⟩ := op_same _ _ hx
          simp only [Option.some.injEq, Prod.mk.injEq] at h
          obtain ⟨h1, h2⟩ := h
          subst h1; subst h2
          simp [owed, owedE, x1, x2, x3, hs]
      · rename_i hj
        have hj : j = none := by simpa using hj
        simp only [Option.some.injEq, Prod.mk.injEq] at h
        obtain ⟨h1, h2⟩ := h
        subst h1; subst h2
        simp [hj]
  | free =>
    obtain ⟨h1, h2, h3, h4, h5⟩ := deref_same _ _ _ h
    simp [owed, owedE, h1, h2, h3, h4, h5]
  | run =>
    simp only [S.step, S.run] at h
    split at h
    · split at h
      · rename_i j hj
        simp only [Option.some.injEq, Prod.mk.injEq] at h
        obtain ⟨h1, h2⟩ := h
        subst h1; subst h2
        by_cases hjk : j = k
        · subst hjk; simp [owed, owedE, hj]
        · simp [owed, owedE, hj, hjk, List.count_cons]
      · rename_i hn
        obtain ⟨h1, h2, h3⟩ := tail_count _ _ _ k h
        simp only [owed, owedE] at *
        simp [h2, h3, hn, h1]
    · simp only [Option.some.injEq, Prod.mk.injEq] at h
      obtain ⟨h1, h2⟩ := h
      subst h1; subst h2
      simp
  | ret f =>
    simp only [S.step, S.ret] at h
    split at h
    · cases f with
      | enable =>
        obtain ⟨h1, h2, h3⟩ := tail_count _ _ _ k h
        simp only [owed, owedE] at *
        simp [h2, h3, h1]
      | shut =>
        obtain ⟨h1, h2, h3, h4, h5⟩ := deref_same _ _ _ h
        simp [owed, owedE, h1, h2, h3, h4, h5]
    · simp only [Option.some.injEq, Prod.mk.injEq] at h
      obtain ⟨h1, h2⟩ := h
      subst h1; subst h2
      simp

/-- No startup is called while a shutdown is under way. -/
def NoRestart : S → List Ev → Prop
  | _, [] => True
  | s, e :: es => ¬ (e = .startup ∧ s.st = .inShutdown) ∧ ∀ s' o, s.step e = some (s', o) → NoRestart s' es

theorem steps_count (es : List Ev) (s s' : S) (o : List Out) (k : Nat) (h : s.steps es = some (s', o)) :
    o.count (.shut k) + owed s' k ≤ owed s k + asked k s es ∧
    (NoRestart s es → o.count (.shut k) + owed s' k = owed s k + asked k s es) ∧
    o.count (.enab k) + owedE s' k = owedE s k + askedE k s es := by
  induction es generalizing s o with
  | nil =>
    simp only [S.steps, Option.some.injEq, Prod.mk.injEq] at h
    obtain ⟨h1, h2⟩ := h
    subst h1; subst h2
    simp [asked, askedE]
  | cons e es ih =>
    simp only [S.steps] at h
    split at h
    · simp at h
    · rename_i s1 o1 hs
      split at h
      · simp at h
      · rename_i s2 o2 hr
        simp only [Option.some.injEq, Prod.mk.injEq] at h
        obtain ⟨h1, h2⟩ := h
        subst h1; subst h2
        obtain ⟨a1, a2, a3⟩ := step_count s s1 e o1 k hs
        obtain ⟨b1, b2, b3⟩ := ih s1 o2 hr
        simp only [asked, askedE, hs, List.count_append]
        refine ⟨by omega, ?_, by omega⟩
        intro hn
        have := a2 hn.1
        have := b2 (hn.2 s1 o1 hs)
        omega

/-- **C211**: the report of a call of `gensio_acc_set_accept_callback_enable`
comes exactly once for every call that was accepted, or is due; the report of a
shutdown comes at most once. -/
theorem C211_once (es : List Ev) (s : S) (o : List Out) (k : Nat) (h : init.steps es = some (s, o)) :
    o.count (.shut k) ≤ asked k init es ∧
    o.count (.enab k) + (if s.edone = some k then 1 else 0) = askedE k init es := by
  obtain ⟨h1, -, h3⟩ := steps_count es init s o k h
  have e1 : owed init k = 0 := rfl
  have e2 : owedE init k = 0 := rfl
  rw [e1] at h1; rw [e2] at h3
  refine ⟨by omega, ?_⟩
  simpa [owedE] using h3

/-- **C211, partial**: if no startup is called while a shutdown is under way,
every shutdown that was accepted is reported exactly once, or its report is
due.  Partial: see `C211_refused_violated`. -/
theorem C211_shut_partial (es : List Ev) (s : S) (o : List Out) (k : Nat) (h : init.steps es = some (s, o))
    (hn : NoRestart init es) :
    o.count (.shut k) + (if s.st = .inShutdown ∧ s.sdone = some k then 1 else 0) = asked k init es := by
  obtain ⟨-, h2, -⟩ := steps_count es init s o k h
  have := h2 hn
  have e1 : owed init k = 0 := rfl
  rw [e1] at this
  simpa [owed] using this

/-- Shut down twice, with an enable in between and a shutdown from inside of
its callback. -/
def example1 : List Ev :=
  [.startup, .enable (some 7), .run, .shutdown (some 1), .ret .enable, .startup, .shutdown (some 2), .run,
   .ret .shut, .ret .shut]

example : ((init.steps example1).map fun r => (r.2.filter fun o => o != .ret 0)) =
    some [.enab 7, .shut 1, .shut 2] ∧ asked 1 init example1 = 1 ∧ asked 2 init example1 = 1 ∧
    askedE 7 init example1 = 1 := by decide +kernel

/-- A shutdown is only reported after a shutdown. -/
theorem silent_step (s s' : S) (e : Ev) (o : List Out) (hs : s.st ≠ .inShutdown) (he : ∀ k, e ≠ .shutdown k)
    (h : s.step e = some (s', o)) : s'.st ≠ .inShutdown ∧ ∀ k, Out.shut k ∉ o := by
  have hc := fun k => (step_count s s' e o k h).1
  constructor
  · cases e with
    | startup => simp only [S.step, S.startup] at h; grind
    | shutdown k => exact absurd rfl (he k)
    | enable k => simp only [S.step, S.enable, S.op] at h; grind
    | free => simp only [S.step, S.deref] at h; grind
    | run => simp only [S.step, S.run, S.tail, S.deref] at h; grind
    | ret f => simp only [S.step, S.ret, S.tail, S.deref] at h; grind
  · intro k hk
    have h1 := hc k
    have h2 : owed s k = 0 := by simp [owed, hs]
    have h3 : 0 < o.count (.shut k) := List.count_pos_iff.mpr hk
    have h4 := he (some k)
    simp only [h2, h4] at h1
    simp at h1
    omega

theorem silent_steps (es : List Ev) (s s' : S) (o : List Out) (hs : s.st ≠ .inShutdown)
    (he : ∀ k, Ev.shutdown k ∉ es) (h : s.steps es = some (s', o)) : ∀ k, Out.shut k ∉ o := by
  induction es generalizing s o with
  | nil =>
    simp only [S.steps, Option.some.injEq, Prod.mk.injEq] at h
    rw [← h.2]; simp
  | cons e es ih =>
    simp only [S.steps] at h
    split at h
    · simp at h
    · rename_i s1 o1 hs1
      split at h
      · simp at h
      · rename_i s2 o2 hr
        simp only [Option.some.injEq, Prod.mk.injEq] at h
        obtain ⟨h1, h2⟩ := h
        subst h1; subst h2
        obtain ⟨a1, a2⟩ := silent_step s s1 e o1 hs (fun k hk => he k (hk ▸ List.mem_cons_self ..)) hs1
        intro k hk
        rcases List.mem_append.mp hk with hk | hk
        · exact a2 k hk
        · exact ih s1 o2 a1 (fun k hk => he k (List.mem_cons_of_mem _ hk)) hr k hk

/-- **C211 is violated**: a startup while a shutdown is under way is refused
with `GE_INUSE`, but the accepter is enabled by it (`gensio_dummy.c:94-96`);
the report of the shutdown that was accepted never comes, whatever follows
short of another shutdown. -/
theorem C211_refused_violated :
    ∃ s, init.steps [.startup, .shutdown (some 1), .startup] = some (s, [.ret 0, .ret 0, .ret GE_INUSE]) ∧
      s.st = .enabled ∧
      ∀ es s' o, (∀ k, Ev.shutdown k ∉ es) → s.steps es = some (s', o) → Out.shut 1 ∉ o := by
  refine ⟨_, rfl, rfl, ?_⟩
  intro es s' o he h
  exact silent_steps es _ s' o (by simp) he h 1

/-! ## References -/

/-- The calls of a user that frees the accepter once and calls nothing after. -/
def Polite : Bool → List Ev → Prop
  | _, [] => True
  | gone, .run :: es => Polite gone es
  | gone, .ret _ :: es => Polite gone es
  | gone, .free :: es => gone = false ∧ Polite true es
  | gone, _ :: es => gone = false ∧ Polite gone es

/-- What holds. -/
structure Inv (s : S) (gone : Bool) : Prop where
  ref : s.ref = n (!gone) + n s.pend + s.frs.length
  fd : s.freed = (s.ref == 0)
  ed : s.edone ≠ none → s.pend = true
  sh : s.st = .inShutdown → s.pend = true ∨ Fr.enable ∈ s.frs

theorem deref_inv (s : S) (gone : Bool) (h1 : s.ref = n (!gone) + n s.pend + s.frs.length + 1)
    (h2 : s.freed = false) (h3 : s.edone ≠ none → s.pend = true)
    (h4 : s.st = .inShutdown → s.pend = true ∨ Fr.enable ∈ s.frs) :
    ∃ s' o, s.deref = some (s', o) ∧ Inv s' gone := by
  simp only [S.deref]
  rw [if_neg (by omega)]
  split
  · rename_i h
    refine ⟨_, _, rfl, ⟨?_, ?_, h3, h4⟩⟩
    · simp only; omega
    · simp
  · rename_i h
    refine ⟨_, _, rfl, ⟨?_, ?_, h3, h4⟩⟩
    · simp only; omega
    · simp only [h2]; symm; rw [beq_eq_false_iff_ne]; omega

theorem tail_inv (s : S) (gone : Bool) (h1 : s.ref = n (!gone) + n s.pend + s.frs.length + 1)
    (h2 : s.freed = false) (h3 : s.edone ≠ none → s.pend = true) :
    ∃ s' o, s.tail = some (s', o) ∧ Inv s' gone := by
  simp only [S.tail]
  split
  · split
    · refine ⟨_, _, rfl, ⟨?_, ?_, h3, by simp⟩⟩
      · simp only [List.length_cons]; omega
      · simp only [h2]; symm; rw [beq_eq_false_iff_ne]; omega
    · exact deref_inv _ gone h1 h2 h3 (by simp)
  · rename_i hs
    exact deref_inv _ gone h1 h2 h3 (fun h => absurd h hs)

/-- Whether the user has freed the accepter after a step. -/
def goneAfter (gone : Bool) : Ev → Bool
  | .free => true
  | _ => gone

theorem step_inv (s : S) (gone : Bool) (e : Ev) (hi : Inv s gone) (hp : Polite gone [e]) :
    ∃ s' o, s.step e = some (s', o) ∧ Inv s' (goneAfter gone e) := by
  obtain ⟨i1, i2, i3, i4⟩ := hi
  have same : ∀ x : S, x.ref = s.ref → x.freed = s.freed → x.pend = s.pend → x.frs = s.frs →
      (x.edone ≠ none → x.pend = true) → (x.st = .inShutdown → x.pend = true ∨ Fr.enable ∈ x.frs) → Inv x gone := by
    intro x a1 a2 a3 a4 a5 a6
    exact ⟨by rw [a1, a3, a4]; exact i1, by rw [a1, a2]; exact i2, a5, a6⟩
  have opI : ∀ x : S, gone = false → x.ref = s.ref → x.freed = s.freed → x.pend = s.pend → x.frs = s.frs →
      ∃ x', x.op = some x' ∧ Inv x' gone := by
    intro x hg a1 a2 a3 a4
    subst hg
    simp only [S.op]
    split
    · rename_i hx
      exact ⟨_, rfl, same x a1 a2 a3 a4 (fun _ => hx) (fun _ => .inl hx)⟩
    · rename_i hx
      have hx' : s.pend = false := by rw [← a3]; simpa using hx
      have : s.ref ≠ 0 := by rw [i1]; simp
      rw [if_neg (by omega)]
      refine ⟨_, rfl, ⟨?_, ?_, fun _ => rfl, fun _ => .inl rfl⟩⟩
      · simp only [a1, a4]; rw [i1, hx']; simp; omega
      · simp only [a1, a2]; rw [i2]; simp [this]
  cases e with
  | startup =>
    simp only [Polite] at hp
    exact ⟨_, _, rfl, same { s with st := .enabled } rfl rfl rfl rfl i3 (by simp)⟩
  | shutdown k =>
    simp only [Polite] at hp
    simp only [S.step, S.shutdown, goneAfter]
    split
    · exact ⟨_, _, rfl, by simpa using same s rfl rfl rfl rfl i3 i4⟩
    · obtain ⟨x, hx, hxi⟩ := opI { s with st := .inShutdown, sdone := k } hp.1 rfl rfl rfl rfl
      rw [hx]
      exact ⟨_, _, rfl, by simpa using hxi⟩
  | enable k =>
    simp only [Polite] at hp
    simp only [S.step, S.enable, goneAfter]
    split
    · exact ⟨_, _, rfl, by simpa using same s rfl rfl rfl rfl i3 i4⟩
    · split
      · obtain ⟨x, hx, hxi⟩ := opI { s with edone := k } hp.1 rfl rfl rfl rfl
        rw [hx]
        exact ⟨_, _, rfl, by simpa using hxi⟩
      · exact ⟨_, _, rfl, by simpa using same s rfl rfl rfl rfl i3 i4⟩
  | free =>
    simp only [Polite] at hp
    have hg := hp.1
    subst hg
    have hr : s.freed = false := by rw [i2]; rw [beq_eq_false_iff_ne, i1]; simp
    obtain ⟨x, o, hx, hxi⟩ := deref_inv s true (by rw [i1]; simp; omega) hr i3 i4
    exact ⟨x, o, hx, by simpa [goneAfter] using hxi⟩
  | run =>
    simp only [S.step, goneAfter]
    split
    · rename_i hpd
      have hr : s.freed = false := by rw [i2]; rw [beq_eq_false_iff_ne, i1, hpd]; simp
      simp only [S.run]
      split
      · refine ⟨_, _, rfl, ⟨?_, ?_, by simp, fun _ => .inr (List.mem_cons_self ..)⟩⟩
        · simp only [List.length_cons]; rw [i1, hpd]; simp; omega
        · simpa using i2
      · rename_i hn
        obtain ⟨x, o, hx, hxi⟩ := tail_inv { s with pend := false } gone (by simp only; rw [i1, hpd]; simp; omega) hr
          (fun h => absurd hn h)
        exact ⟨x, o, hx, by simpa using hxi⟩
    · exact ⟨_, _, rfl, by simpa using same s rfl rfl rfl rfl i3 i4⟩
  | ret f =>
    simp only [S.step, goneAfter]
    split
    · rename_i hf
      have hl := List.length_erase_of_mem hf
      have hpos : 0 < s.frs.length := List.length_pos_of_mem hf
      have hr : s.freed = false := by rw [i2]; rw [beq_eq_false_iff_ne, i1]; omega
      cases f with
      | enable =>
        obtain ⟨x, o, hx, hxi⟩ := tail_inv { s with frs := s.frs.erase .enable } gone
          (by simp only; rw [i1, hl]; omega) hr i3
        exact ⟨x, o, hx, by simpa using hxi⟩
      | shut =>
        obtain ⟨x, o, hx, hxi⟩ := deref_inv { s with frs := s.frs.erase .shut } gone
          (by simp only; rw [i1, hl]; omega) hr i3
          (by
            intro h
            rcases i4 h with h | h
            · exact .inl h
            · exact .inr ((List.mem_erase_of_ne (by simp)).mpr h))
        exact ⟨x, o, hx, by simpa using hxi⟩
    · exact ⟨_, _, rfl, by simpa using same s rfl rfl rfl rfl i3 i4⟩

theorem polite_cons (gone : Bool) (e : Ev) (es : List Ev) (h : Polite gone (e :: es)) :
    Polite gone [e] ∧ Polite (goneAfter gone e) es := by
  cases e <;> simp_all [Polite, goneAfter] <;> grind

theorem steps_inv (es : List Ev) (s : S) (gone : Bool) (hi : Inv s gone) (hp : Polite gone es) :
    ∃ s' o, s.steps es = some (s', o) ∧ Inv s' (gone || es.contains .free) := by
  induction es generalizing s gone with
  | nil => exact ⟨s, [], rfl, by simpa using hi⟩
  | cons e es ih =>
    obtain ⟨h1, h2⟩ := polite_cons gone e es hp
    obtain ⟨s1, o1, hs, hi1⟩ := step_inv s gone e hi h1
    obtain ⟨s2, o2, hr, hi2⟩ := ih s1 _ hi1 h2
    refine ⟨s2, o1 ++ o2, by simp [S.steps, hs, hr], ?_⟩
    have : (goneAfter gone e || es.contains .free) = (gone || (e :: es).contains .free) := by
      cases e <;> simp [goneAfter]
    rw [← this]; exact hi2

/-- **C211**: for a user that frees the accepter once and calls nothing after
that: no assertion fails, and the memory is given back exactly when the user
has freed the accepter, the deferred operation is not due and no callback runs;
a report that is due has a run or a callback before it that will give it. -/
theorem C211_memory (es : List Ev) (hp : Polite false es) :
    ∃ s o, init.steps es = some (s, o) ∧
      (s.freed = true ↔ es.contains .free = true ∧ s.pend = false ∧ s.frs = []) ∧
      (s.edone ≠ none → s.pend = true) ∧ (s.st = .inShutdown → s.pend = true ∨ Fr.enable ∈ s.frs) := by
  obtain ⟨s, o, h, hi⟩ := steps_inv es init false ⟨rfl, rfl, by simp [init], by simp [init]⟩ hp
  refine ⟨s, o, h, ?_, hi.ed, hi.sh⟩
  rw [hi.fd, hi.ref]
  rw [Bool.false_or]
  cases es.contains .free <;> cases s.pend <;> simp

/-- Freed in the callback of the shutdown. -/
example : Polite false [.startup, .shutdown (some 1), .run, .free, .ret .shut] ∧
    ((init.steps [.startup, .shutdown (some 1), .run, .free, .ret .shut]).map fun r => (r.1.freed, r.2)) =
      some (true, [.ret 0, .ret 0, .shut 1, .freed]) := by
  refine ⟨by simp [Polite], by decide +kernel⟩

/-- **C211**: a run of the deferred operation while a shutdown is under way
reports it, or calls the callback of an enable first, whose return reports
it. -/
theorem C211_progress (s : S) (k : Nat) (hs : s.st = .inShutdown) (hk : s.sdone = some k) :
    (Fr.enable ∈ s.frs → ∃ s', s.step (.ret .enable) = some (s', [.shut k])) ∧
    (s.pend = true → (∃ s', s.step .run = some (s', [.shut k])) ∨
      ∃ s' j, s.step .run = some (s', [.enab j]) ∧ Fr.enable ∈ s'.frs ∧ s'.st = .inShutdown ∧ s'.sdone = some k) := by
  constructor
  · intro h
    simp [S.step, S.ret, S.tail, h, hs, hk]
  · intro h
    cases he : s.edone with
    | none => left; simp [S.step, S.run, S.tail, h, he, hs, hk]
    | some j => right; simp [S.step, S.run, h, he, hs, hk]

end Gensio.Dummy
