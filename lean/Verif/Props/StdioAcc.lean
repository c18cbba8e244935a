import Verif.Model.StdioAcc

/-!
# The stdio accepter: C212 and C213
-/

namespace Gensio.StdioAcc

set_option maxHeartbeats 1000000

@[simp] theorem n_true : n true = 1 := rfl
@[simp] theorem n_false : n false = 0 := rfl

/-! ## References -/

/-- A reference is held for the run of the connect runner. -/
def busy (s : S) : Bool := decide (s.cr ≠ .idle)

/-- The references that are held: by the user for the accepter, by the runners
and what they have called, by the handlers, by the deferred operation, for the
gensio, and those that are lost. -/
def held (s : S) : Nat :=
  n (!s.inFree) + n (busy s) + n s.eq + s.efr + n s.hIn + n s.hOut + n s.defPend + s.cfr + s.grefs + s.lost

/-- What else holds. -/
structure Aux (s : S) : Prop where
  ci : s.cIn = true → s.hIn = true
  co : s.cOut = true → s.hOut = true
  ed : s.edone ≠ none → s.eq = true
  up : s.inStartup = true → busy s = true ∧ (s.enabled = true ∨ s.inShutdown = true)
  dn : s.inShutdown = true → busy s = true
  cn : s.cr = .conn → s.inStartup = false ∧ (s.enabled = true ∨ s.inShutdown = true)
  dc : s.defClose = true → s.defPend = true

structure Inv (s : S) : Prop where
  ref : s.ref = held s
  fd : s.freed = (s.ref == 0)
  aux : Aux s

/-- What a user may call: the accepter until it is freed, the gensio once it
was given and until it is freed. -/
def Ok (s : S) : Ev → Prop
  | .startup _ | .shutdown _ | .enable _ | .freeAcc => s.inFree = false
  | .close _ | .freeIo => 0 < s.grefs ∧ s.gFree = false
  | _ => True

theorem deref_inv (s : S) (h1 : s.ref = held s + 1) (h2 : s.freed = false) (h3 : Aux s) :
    ∃ s' o, s.deref = some (s', o) ∧ Inv s' := by
  simp only [S.deref]
  rw [if_neg (by omega)]
  obtain ⟨a1, a2, a3, a4, a5, a6, a7⟩ := h3
  split
  · rename_i h
    refine ⟨_, _, rfl, ⟨?_, by simp, ⟨a1, a2, a3, a4, a5, a6, a7⟩⟩⟩
    simp only [held, busy] at *; omega
  · rename_i h
    refine ⟨_, _, rfl, ⟨?_, ?_, ⟨a1, a2, a3, a4, a5, a6, a7⟩⟩⟩
    · simp only [held, busy] at *; omega
    · simp only [h2]; symm; rw [beq_eq_false_iff_ne]; omega

theorem afterShut_inv (s : S) (h1 : s.ref = held s) (h2 : s.freed = false) (h3 : Aux s) (hb : s.cr ≠ .idle) :
    ∃ s' o, s.afterShut = some (s', o) ∧ Inv s' := by
  have hp : 0 < s.ref := by rw [h1]; simp [held, busy, hb]; omega
  have hf : ∀ r : Nat, 0 < r → false = (r == 0) := by intro r hr; symm; rw [beq_eq_false_iff_ne]; omega
  obtain ⟨a1, a2, a3, a4, a5, a6, a7⟩ := h3
  simp only [S.afterShut]
  split
  · rename_i hs
    refine ⟨_, _, rfl, ⟨?_, ?_, ⟨a1, a2, a3, by simp, by simp [busy], ?_, a7⟩⟩⟩
    · rw [h1]; simp [held, busy, hb]
    · simp only [h2]; exact hf _ hp
    · intro _; exact ⟨rfl, (a4 hs).2⟩
  · rename_i hs
    split
    · refine ⟨_, _, rfl, ⟨?_, ?_, ⟨a1, a2, a3, by simp [hs], by simp, by simp, a7⟩⟩⟩
      · rw [h1]; simp [held, busy, hb]
      · simp only [h2]; exact hf _ hp
    · rename_i hd
      refine deref_inv _ ?_ h2 ⟨a1, a2, a3, by simp [hs], by simp [hd], by simp, a7⟩
      simp only [h1]; simp [held, busy, hb]; omega

theorem take_some (s : S) (h : 0 < s.ref) : s.take = some { s with ref := s.ref + 1 } := by
  simp only [S.take]; rw [if_neg (by omega)]

theorem runner_eq (s : S) (h : 0 < s.ref) :
    s.runner = some (if s.cr = .idle then { s with ref := s.ref + 1, cr := .queued } else s) := by
  simp only [S.runner]
  split
  · rw [take_some s h]
  · rfl

theorem cleanup_inv (s : S) (h : Inv s) : Inv s.cleanup := by
  obtain ⟨h1, h2, a1, a2, a3, a4, a5, a6, a7⟩ := h
  refine ⟨?_, h2, ⟨by simp [S.cleanup], by simp [S.cleanup], a3, a4, a5, a6, a7⟩⟩
  simp only [S.cleanup]
  rw [h1]
  simp [held, busy]; omega

theorem fd_ne {s : S} (h : s.freed = (s.ref == 0)) (hp : 0 < s.ref) : s.freed = false := by
  rw [h, beq_eq_false_iff_ne]; omega

theorem fd_mk {f : Bool} {r : Nat} (h : f = false) (hp : 0 < r) : f = (r == 0) := by
  rw [h]; symm; rw [beq_eq_false_iff_ne]; omega

theorem step_inv (s : S) (e : Ev) (hi : Inv s) (hk : Ok s e) : ∃ s' o, s.step e = some (s', o) ∧ Inv s' := by
  have hi' := hi
  obtain ⟨h1, h2, h3⟩ := hi
  have h3' := h3
  obtain ⟨a1, a2, a3, a4, a5, a6, a7⟩ := h3
  have live : s.inFree = false → 0 < s.ref := by intro h; rw [h1]; simp [held, h]; omega
  have liveG : 0 < s.grefs → 0 < s.ref := by intro h; rw [h1]; simp [held]; omega
  have closeI : ∀ x : S, 0 < s.ref → x.ref = held x → x.freed = false → Aux x → 0 < x.ref →
      ∀ k, ∃ x', S.iclose x k = some x' ∧ Inv x' := by
    intro x hp b1 b2 b3 hx k
    obtain ⟨c1, c2, c3, c4, c5, c6, c7⟩ := b3
    simp only [S.iclose, S.defer]
    split
    · rename_i hd
      refine ⟨_, rfl, ⟨?_, fd_mk b2 hx, ⟨c1, c2, c3, c4, c5, c6, fun _ => hd⟩⟩⟩
      simpa [held, busy] using b1
    · rename_i hd
      rw [take_some _ (by exact hx)]
      refine ⟨_, rfl, ⟨?_, fd_mk b2 (by simp), ⟨c1, c2, c3, c4, c5, c6, fun _ => rfl⟩⟩⟩
      have hd : x.defPend = false := by simpa using hd
      simp only [held, busy] at b1 ⊢; rw [b1, hd]; simp; omega
  cases e with
  | startup os =>
    have hp := live hk
    have hfd := fd_ne h2 hp
    simp only [S.step, S.startup]
    split
    · exact ⟨_, _, rfl, hi'⟩
    rename_i hn
    split
    · exact ⟨_, _, rfl, hi'⟩
    rename_i hen
    split
    · exact ⟨_, _, rfl, hi'⟩
    split
    · exact ⟨_, _, rfl, cleanup_inv s hi'⟩
    rename_i hhi
    split
    · exact ⟨_, _, rfl, cleanup_inv s hi'⟩
    have hhi : s.hIn = false := by simpa using hhi
    rw [take_some _ (by exact hp)]
    have hi2 : Inv { s with hIn := true, ref := s.ref + 1 } := by
      refine ⟨?_, fd_mk hfd (by simp), ⟨fun _ => rfl, a2, a3, a4, a5, a6, a7⟩⟩
      simp only [held, busy] at h1 ⊢; rw [h1, hhi]; simp; omega
    simp only [S.second]
    split
    · exact ⟨_, _, rfl, cleanup_inv _ hi2⟩
    rename_i hho
    split
    · exact ⟨_, _, rfl, cleanup_inv _ hi2⟩
    have hho : s.hOut = false := by simpa using hho
    rw [take_some _ (by simp)]
    simp only [S.started]
    rw [runner_eq _ (by simp)]
    simp only
    by_cases hc : s.cr = .idle
    · simp only [hc, ↓reduceIte]
      rw [take_some _ (by simp)]
      refine ⟨_, _, rfl, ⟨?_, fd_mk hfd (by simp), ⟨fun _ => rfl, fun _ => rfl, a3, by simp [busy], by simp [busy], by simp, a7⟩⟩⟩
      simp only [held, busy] at h1 ⊢; rw [h1, hhi, hho, hc]; simp; omega
    · simp only [hc, ↓reduceIte]
      rw [take_some _ (by simp)]
      refine ⟨_, _, rfl, ⟨?_, fd_mk hfd (by simp), ⟨fun _ => rfl, fun _ => rfl, a3, by simp [busy, hc], by simp [busy, hc], ?_, a7⟩⟩⟩
      · simp only [held, busy] at h1 ⊢; rw [h1, hhi, hho]; simp; omega
      · intro hcn
        have := (a6 hcn).2
        simp at hn
        simp_all
  | shutdown k =>
    have hp := live hk
    have hfd := fd_ne h2 hp
    simp only [S.step, S.shutdown]
    split
    · exact ⟨_, _, rfl, hi'⟩
    split
    · exact ⟨_, _, rfl, hi'⟩
    rw [runner_eq _ (by exact hp)]
    simp only
    by_cases hc : s.cr = .idle
    · simp only [hc, ↓reduceIte]
      refine ⟨_, _, rfl, ⟨?_, fd_mk hfd (by simp), ⟨a1, a2, a3, by simp [busy], by simp [busy], by simp, a7⟩⟩⟩
      simp only [held, busy] at h1 ⊢; rw [h1, hc]; simp; omega
    · simp only [hc, ↓reduceIte]
      refine ⟨_, _, rfl, ⟨?_, fd_mk hfd hp, ⟨a1, a2, a3, by simp [busy, hc], by simp [busy, hc], ?_, a7⟩⟩⟩
      · simpa [held, busy] using h1
      · intro hcn; exact ⟨(a6 hcn).1, .inr rfl⟩
  | enable k =>
    have hp := live hk
    have hfd := fd_ne h2 hp
    simp only [S.step, S.enable]
    split
    · exact ⟨_, _, rfl, hi'⟩
    rw [take_some _ (by exact hp)]
    refine ⟨_, _, rfl, ⟨?_, fd_mk hfd (by simp), ⟨a1, a2, fun _ => rfl, a4, a5, a6, a7⟩⟩⟩
    simp only [held, busy] at h1 ⊢; rw [h1]
    cases s.eq <;> simp <;> omega
  | freeAcc =>
    have hp := live hk
    simp only [Ok] at hk
    refine deref_inv _ ?_ (fd_ne h2 hp) ⟨a1, a2, a3, a4, a5, a6, a7⟩
    simp only [held, busy] at h1 ⊢; rw [h1, hk]; simp; omega
  | close k =>
    have hp := liveG hk.1
    simp only [S.step, S.close]
    split
    · exact ⟨_, _, rfl, hi'⟩
    obtain ⟨x, hx, hxi⟩ := closeI s hp h1 (fd_ne h2 hp) h3' hp k
    rw [hx]
    exact ⟨_, _, rfl, hxi⟩
  | freeIo =>
    have hp := liveG hk.1
    simp only [S.step, S.freeIo]
    split
    · refine ⟨_, _, rfl, ⟨?_, h2, ⟨a1, a2, a3, a4, a5, a6, a7⟩⟩⟩
      simpa [held, busy] using h1
    split
    · refine deref_inv _ ?_ (fd_ne h2 hp) ⟨a1, a2, a3, a4, a5, a6, a7⟩
      have := hk.1
      simp only [held, busy] at h1 ⊢; rw [h1]; omega
    obtain ⟨x, hx, hxi⟩ := closeI { s with gFree := true } hp (by simpa [held, busy] using h1) (fd_ne h2 hp)
      ⟨a1, a2, a3, a4, a5, a6, a7⟩ hp none
    rw [hx]
    exact ⟨_, _, rfl, hxi⟩
  | runConn =>
    simp only [S.step]
    split
    · rename_i hc
      have hp : 0 < s.ref := by rw [h1]; simp [held, busy, hc]; omega
      exact afterShut_inv s h1 (fd_ne h2 hp) h3' (by simp [hc])
    · exact ⟨_, _, rfl, hi'⟩
  | connRet =>
    simp only [S.step]
    split
    · rename_i hc
      have hp : 0 < s.ref := by rw [h1]; simp [held, busy, hc]; omega
      simp only [S.connRet]
      split
      · refine ⟨_, _, rfl, ⟨?_, h2, ⟨a1, a2, a3, ?_, by simp, by simp, a7⟩⟩⟩
        · rw [h1]; simp [held, busy, hc]
        · have := (a6 hc).1
          simp [this]
      · exact afterShut_inv s h1 (fd_ne h2 hp) h3' (by simp [hc])
    · exact ⟨_, _, rfl, hi'⟩
  | look =>
    simp only [S.step]
    split
    · rename_i hc
      have hp : 0 < s.ref := by rw [h1]; simp [held, busy, hc]; omega
      simp only [S.look]
      split
      · refine ⟨_, _, rfl, ⟨?_, h2, ⟨a1, a2, a3, ?_, ?_, by simp, a7⟩⟩⟩
        · rw [h1]; simp [held, busy, hc]
        · intro h; exact ⟨by simp [busy], (a4 h).2⟩
        · simp [busy]
      · exact afterShut_inv s h1 (fd_ne h2 hp) h3' (by simp [hc])
    · exact ⟨_, _, rfl, hi'⟩
  | shutRet =>
    simp only [S.step]
    split
    · rename_i hc
      have hp : 0 < s.ref := by rw [h1]; simp [held, busy, hc]; omega
      exact afterShut_inv s h1 (fd_ne h2 hp) h3' (by simp [hc])
    · exact ⟨_, _, rfl, hi'⟩
  | runEn =>
    simp only [S.step]
    split
    · rename_i hc
      have hp : 0 < s.ref := by rw [h1]; simp [held, hc]; omega
      simp only [S.runEn]
      split
      · refine ⟨_, _, rfl, ⟨?_, h2, ⟨a1, a2, by simp, a4, a5, a6, a7⟩⟩⟩
        simp only [held, busy] at h1 ⊢; rw [h1, hc]; simp; omega
      · rename_i hn
        refine deref_inv _ ?_ (fd_ne h2 hp) ⟨a1, a2, by simp [hn], a4, a5, a6, a7⟩
        simp only [held, busy] at h1 ⊢; rw [h1, hc]; simp; omega
    · exact ⟨_, _, rfl, hi'⟩
  | enRet =>
    simp only [S.step]
    split
    · exact ⟨_, _, rfl, hi'⟩
    · rename_i hc
      have hp : 0 < s.ref := by rw [h1]; simp only [held]; omega
      refine deref_inv _ ?_ (fd_ne h2 hp) ⟨a1, a2, a3, a4, a5, a6, a7⟩
      simp only [held, busy] at h1 ⊢; rw [h1]; omega
  | runDef =>
    simp only [S.step]
    split
    · rename_i hc
      have hp : 0 < s.ref := by rw [h1]; simp [held, hc]; omega
      simp only [S.runDef]
      split
      · refine deref_inv _ ?_ (fd_ne h2 hp) ⟨by simp; grind, by simp; grind, a3, a4, a5, a6, by simp⟩
        simp only [held, busy] at h1 ⊢; rw [h1, hc]; simp; omega
      · rename_i hd
        refine deref_inv _ ?_ (fd_ne h2 hp) ⟨a1, a2, a3, a4, a5, a6, fun h => absurd h hd⟩
        simp only [held, busy] at h1 ⊢; rw [h1, hc]; simp; omega
    · exact ⟨_, _, rfl, hi'⟩
  | clearedIn =>
    simp only [S.step]
    split
    · rename_i hc
      have hh := a1 hc
      have hp : 0 < s.ref := by rw [h1]; simp [held, hh]; omega
      simp only [S.cleared]
      split
      · split
        · refine ⟨_, _, rfl, ⟨?_, h2, ⟨by simp, a2, a3, a4, a5, a6, a7⟩⟩⟩
          simp only [held, busy] at h1 ⊢; rw [h1, hh]; simp; omega
        · refine deref_inv _ ?_ (fd_ne h2 hp) ⟨by simp, a2, a3, a4, a5, a6, a7⟩
          simp only [held, busy] at h1 ⊢; rw [h1, hh]; simp; omega
      · refine deref_inv _ ?_ (fd_ne h2 hp) ⟨by simp, a2, a3, a4, a5, a6, a7⟩
        simp only [held, busy] at h1 ⊢; rw [h1, hh]; simp; omega
    · exact ⟨_, _, rfl, hi'⟩
  | clearedOut =>
    simp only [S.step]
    split
    · rename_i hc
      have hh := a2 hc
      have hp : 0 < s.ref := by rw [h1]; simp [held, hh]; omega
      simp only [S.cleared]
      split
      · split
        · refine ⟨_, _, rfl, ⟨?_, h2, ⟨a1, by simp, a3, a4, a5, a6, a7⟩⟩⟩
          simp only [held, busy] at h1 ⊢; rw [h1, hh]; simp; omega
        · refine deref_inv _ ?_ (fd_ne h2 hp) ⟨a1, by simp, a3, a4, a5, a6, a7⟩
          simp only [held, busy] at h1 ⊢; rw [h1, hh]; simp; omega
      · refine deref_inv _ ?_ (fd_ne h2 hp) ⟨a1, by simp, a3, a4, a5, a6, a7⟩
        simp only [held, busy] at h1 ⊢; rw [h1, hh]; simp; omega
    · exact ⟨_, _, rfl, hi'⟩
  | clearRet =>
    simp only [S.step]
    split
    · exact ⟨_, _, rfl, hi'⟩
    · rename_i hc
      have hp : 0 < s.ref := by rw [h1]; simp only [held]; omega
      refine deref_inv _ ?_ (fd_ne h2 hp) ⟨a1, a2, a3, a4, a5, a6, a7⟩
      simp only [held, busy] at h1 ⊢; rw [h1]; omega

/-- Every call of a run is one that the user may make. -/
def Polite : S → List Ev → Prop
  | _, [] => True
  | s, e :: es => Ok s e ∧ ∀ s' o, s.step e = some (s', o) → Polite s' es

instance decOk (s : S) (e : Ev) : Decidable (Ok s e) := by
  cases e <;> simp only [Ok] <;> infer_instance

/-- To check examples. -/
def politeB : S → List Ev → Bool
  | _, [] => true
  | s, e :: es => decide (Ok s e) && match s.step e with
    | none => true
    | some r => politeB r.1 es

theorem politeB_ok (es : List Ev) (s : S) (h : politeB s es = true) : Polite s es := by
  induction es generalizing s with
  | nil => trivial
  | cons e es ih =>
    simp only [politeB, Bool.and_eq_true, decide_eq_true_eq] at h
    refine ⟨h.1, ?_⟩
    intro s' o hs
    have := h.2
    rw [hs] at this
    exact ih s' this

theorem steps_inv (es : List Ev) (s : S) (hi : Inv s) (hp : Polite s es) :
    ∃ s' o, s.steps es = some (s', o) ∧ Inv s' := by
  induction es generalizing s with
  | nil => exact ⟨s, [], rfl, hi⟩
  | cons e es ih =>
    obtain ⟨s1, o1, hs, hi1⟩ := step_inv s e hi hp.1
    obtain ⟨s2, o2, hr, hi2⟩ := ih s1 hi1 (hp.2 s1 o1 hs)
    exact ⟨s2, o1 ++ o2, by simp [S.steps, hs, hr], hi2⟩

theorem init_inv : Inv init :=
  ⟨rfl, rfl, ⟨by simp [init], by simp [init], by simp [init], by simp [init], by simp [init], by simp [init], by simp [init]⟩⟩

/-- **C212**: for a user that calls neither the accepter nor the gensio after
freeing it, no assertion fails, and the memory is given back exactly when the
user has freed the accepter, no runner is due or in a callback, no handler is
set, and no reference for a gensio is left or was lost.  What is due has a run
before it that will report it. -/
theorem C212_memory (es : List Ev) (hp : Polite init es) :
    ∃ s o, init.steps es = some (s, o) ∧
      (s.freed = true ↔ s.inFree = true ∧ s.cr = .idle ∧ s.eq = false ∧ s.efr = 0 ∧ s.hIn = false ∧ s.hOut = false ∧
        s.defPend = false ∧ s.cfr = 0 ∧ s.grefs = 0 ∧ s.lost = 0) ∧
      (s.inStartup = true ∨ s.inShutdown = true → s.cr ≠ .idle) ∧ (s.edone ≠ none → s.eq = true) ∧
      (s.defClose = true → s.defPend = true) := by
  obtain ⟨s, o, h, hi⟩ := steps_inv es init init_inv hp
  refine ⟨s, o, h, ?_, ?_, hi.aux.ed, hi.aux.dc⟩
  · rw [hi.fd, hi.ref]
    simp only [held, busy, beq_iff_eq]
    have hn : ∀ b : Bool, n b = 0 ↔ b = false := by intro b; cases b <;> simp
    constructor
    · intro h
      simp only [Nat.add_eq_zero_iff, hn] at h
      obtain ⟨⟨⟨⟨⟨⟨⟨⟨⟨c1, c2⟩, c3⟩, c4⟩, c5⟩, c6⟩, c7⟩, c8⟩, c9⟩, c10⟩ := h
      exact ⟨by simpa using c1, by simpa using c2, c3, c4, c5, c6, c7, c8, c9, c10⟩
    · rintro ⟨c1, c2, c3, c4, c5, c6, c7, c8, c9, c10⟩
      simp [c1, c2, c3, c4, c5, c6, c7, c8, c9, c10]
  · intro h
    have hb : busy s = true := by
      rcases h with h | h
      · exact (hi.aux.up h).1
      · exact hi.aux.dn h
    simpa [busy] using hb

/-- A life without a fault: started, connected, closed, freed, shut down and
freed. -/
def life : List Ev :=
  [.startup {}, .runConn, .connRet, .close (some 1), .runDef, .clearedIn, .clearedOut, .freeIo, .clearRet,
   .enable (some 2), .runEn, .enRet, .shutdown (some 3), .runConn, .look, .freeAcc, .shutRet]

example : Polite init life ∧ ((init.steps life).map fun r => r.2.filter fun o => o != .ret 0) =
    some [.newConn true, .closeDone 1, .enab 2, .shut 3, .freed] :=
  ⟨politeB_ok _ _ (by decide +kernel), by decide +kernel⟩

/-- References that stay: lost ones, and those for a gensio that the user has
freed and that was not dropped then. -/
def Stays (s : S) : Prop := 0 < s.lost ∨ (s.gFree = true ∧ 0 < s.grefs)

theorem deref_same (s s' : S) (o : List Out) (h : s.deref = some (s', o)) :
    s' = { s with ref := s'.ref, freed := s'.freed } ∧ (o = [] ∨ o = [.freed]) := by
  simp only [S.deref] at h
  split at h
  · simp at h
  · split at h <;>
    · simp only [Option.some.injEq, Prod.mk.injEq] at h
      obtain ⟨h1, h2⟩ := h
      subst h1; subst h2
      simp

/-- What a startup does: nothing, or it drops the handlers, or it succeeds. -/
theorem startup_cases (s s' : S) (os : Os) (o : List Out) (h : s.startup os = some (s', o)) :
    ((s' = s ∨ s' = s.cleanup ∧ (s.hIn = true ∨ os.first ≠ 0) ∨
        s' = S.cleanup { s with hIn := true, ref := s.ref + 1 } ∧ (s.hOut = true ∨ os.second ≠ 0)) ∧
      ∃ e, e ≠ 0 ∧ o = [.ret e]) ∨
    (o = [.ret 0] ∧ s.inFree = false ∧ s.inShutdown = false ∧ s.enabled = false ∧
      s' = { s with hIn := true, hOut := true, closed := false, inStartup := true, enabled := true, cr := (if s.cr = .idle then .queued else s.cr), ref := s'.ref, grefs := s.grefs + 1 }) := by
  simp only [S.startup] at h
  split at h
  · simp only [Option.some.injEq, Prod.mk.injEq] at h
    exact .inl ⟨.inl h.1.symm, _, by decide, h.2.symm⟩
  rename_i hn
  simp only [not_or, Bool.not_eq_true] at hn
  split at h
  · simp only [Option.some.injEq, Prod.mk.injEq] at h
    exact .inl ⟨.inl h.1.symm, _, by decide, h.2.symm⟩
  rename_i hen
  have hen : s.enabled = false := by simpa using hen
  split at h
  · rename_i h0
    simp only [Option.some.injEq, Prod.mk.injEq] at h
    exact .inl ⟨.inl h.1.symm, _, h0, h.2.symm⟩
  split at h
  · rename_i h0
    simp only [Option.some.injEq, Prod.mk.injEq] at h
    exact .inl ⟨.inr (.inl ⟨h.1.symm, .inl h0⟩), _, by decide, h.2.symm⟩
  split at h
  · rename_i h0
    simp only [Option.some.injEq, Prod.mk.injEq] at h
    exact .inl ⟨.inr (.inl ⟨h.1.symm, .inr h0⟩), _, h0, h.2.symm⟩
  by_cases hr : s.ref = 0
  · simp [S.take, hr] at h
  rw [take_some _ (by simp only; omega)] at h
  simp only [S.second] at h
  split at h
  · rename_i h0
    simp only [Option.some.injEq, Prod.mk.injEq] at h
    exact .inl ⟨.inr (.inr ⟨h.1.symm, .inl h0⟩), _, by decide, h.2.symm⟩
  split at h
  · rename_i h0
    simp only [Option.some.injEq, Prod.mk.injEq] at h
    exact .inl ⟨.inr (.inr ⟨h.1.symm, .inr h0⟩), _, h0, h.2.symm⟩
  rw [take_some _ (by simp)] at h
  simp only [S.started] at h
  rw [runner_eq _ (by simp)] at h
  simp only at h
  right
  by_cases hc : s.cr = .idle
  · simp only [hc, ↓reduceIte] at h
    rw [take_some _ (by simp)] at h
    simp only [Option.some.injEq, Prod.mk.injEq] at h
    obtain ⟨h1, h2⟩ := h
    subst h1; subst h2
    simp [hn, hen, hc]
  · simp only [hc, ↓reduceIte] at h
    rw [take_some _ (by simp)] at h
    simp only [Option.some.injEq, Prod.mk.injEq] at h
    obtain ⟨h1, h2⟩ := h
    subst h1; subst h2
    simp [hn, hen, hc]

/-- What an enable does. -/
theorem enable_cases (s s' : S) (k : Option Nat) (o : List Out) (h : s.enable k = some (s', o)) :
    (s' = s ∧ s.edone ≠ none ∧ o = [.ret GE_INUSE]) ∨
    (s.edone = none ∧ o = [.ret 0] ∧ s' = { s with edone := k, eq := true, lost := s.lost + n s.eq, ref := s.ref + 1 }) := by
  simp only [S.enable] at h
  split at h
  · rename_i hs
    simp only [Option.some.injEq, Prod.mk.injEq] at h
    exact .inl ⟨h.1.symm, by intro hn; simp [hn] at hs, h.2.symm⟩
  · rename_i hs
    by_cases hr : s.ref = 0
    · simp [S.take, hr] at h
    rw [take_some _ (by simp only; omega)] at h
    simp only [Option.some.injEq, Prod.mk.injEq] at h
    exact .inr ⟨by simpa using hs, h.2.symm, h.1.symm⟩

theorem afterShut_gone (s s' : S) (o : List Out) (h : s.afterShut = some (s', o)) :
    s'.lost = s.lost ∧ s'.gFree = s.gFree ∧ s'.grefs = s.grefs := by
  simp only [S.afterShut, S.deref] at h
  grind

theorem stays_step (s s' : S) (e : Ev) (o : List Out) (hk : Ok s e) (hs : Stays s) (h : s.step e = some (s', o)) :
    Stays s' := by
  simp only [Stays] at *
  cases e with
  | startup os =>
    simp only [S.step] at h
    rcases startup_cases s s' os o h with ⟨h1 | h1 | h1, -⟩ | ⟨-, -, -, -, h1⟩
    · rw [h1]; exact hs
    · rw [h1.1]; simp only [S.cleanup]; grind
    · rw [h1.1]; simp only [S.cleanup]; grind
    · rw [h1]; simp only; grind
  | shutdown k => simp only [S.step, S.shutdown, S.runner, S.take] at h; grind
  | enable k =>
    simp only [S.step] at h
    rcases enable_cases s s' k o h with ⟨h1, -⟩ | ⟨-, -, h1⟩ <;> rw [h1]
    · exact hs
    · simp only; grind
  | freeAcc => simp only [S.step, S.freeAcc, S.deref] at h; grind
  | close k => simp only [S.step, S.close, S.iclose, S.defer, S.take] at h; grind
  | freeIo =>
    simp only [Ok] at hk
    simp only [S.step, S.freeIo, S.iclose, S.defer, S.take, S.deref] at h
    grind
  | runConn => simp only [S.step, S.runConn] at h; have := afterShut_gone s s' o; grind
  | connRet => simp only [S.step, S.connRet] at h; have := afterShut_gone s s' o; grind
  | look => simp only [S.step, S.look] at h; have := afterShut_gone s s' o; grind
  | shutRet => simp only [S.step] at h; have := afterShut_gone s s' o; grind
  | runEn => simp only [S.step, S.runEn, S.deref] at h; grind
  | enRet => simp only [S.step, S.deref] at h; grind
  | runDef => simp only [S.step, S.runDef, S.deref] at h; grind
  | clearedIn => simp only [S.step, S.cleared, S.deref] at h; grind
  | clearedOut => simp only [S.step, S.cleared, S.deref] at h; grind
  | clearRet => simp only [S.step, S.deref] at h; grind

theorem stays_steps (es : List Ev) (s s' : S) (o : List Out) (hi : Inv s) (hs : Stays s) (hp : Polite s es)
    (h : s.steps es = some (s', o)) : Inv s' ∧ Stays s' := by
  induction es generalizing s o with
  | nil =>
    simp only [S.steps, Option.some.injEq, Prod.mk.injEq] at h
    rw [← h.1]; exact ⟨hi, hs⟩
  | cons e es ih =>
    obtain ⟨s1, o1, h1, hi1⟩ := step_inv s e hi hp.1
    obtain ⟨s2, o2, h2, hi2⟩ := steps_inv es s1 hi1 (hp.2 s1 o1 h1)
    simp only [S.steps, h1, h2, Option.some.injEq, Prod.mk.injEq] at h
    obtain ⟨e1, e2⟩ := h
    subst e1
    exact ih s1 o2 hi1 (stays_step s s1 e o1 hp.1 hs h1) (hp.2 s1 o1 h1) h2

/-- Never given back, whatever follows. -/
def Never (es : List Ev) : Prop :=
  Polite init es ∧ ∃ s o, init.steps es = some (s, o) ∧
    ∀ es' s' o', Polite s es' → s.steps es' = some (s', o') → s'.freed = false

theorem never_of (es : List Ev) (hp : politeB init es = true)
    (hs : (init.steps es).any (fun r => decide (0 < r.1.lost) || (r.1.gFree && decide (0 < r.1.grefs))) = true) :
    Never es := by
  have hp' := politeB_ok _ _ hp
  obtain ⟨s, o, h, hi⟩ := steps_inv es init init_inv hp'
  refine ⟨hp', s, o, h, ?_⟩
  have hst : Stays s := by
    rw [h] at hs
    simpa [Stays] using hs
  intro es' s' o' hpe hse
  obtain ⟨hi', hst'⟩ := stays_steps es' s s' o' hi hst hpe hse
  have : s'.ref ≠ 0 := by
    rw [hi'.ref]
    simp only [held]
    rcases hst' with h | h <;> omega
  rw [hi'.fd]
  simpa using this

/-- **C212 is violated**: a gensio that is freed without a close before it is
closed, but `stdiona_fd_cleared` (`gensio_stdio.c:1331-1342`) does not look at
`in_free`, as `check_waitpid` does (`gensio_stdio.c:359-363`): the reference
for the gensio is never dropped, and the accepter with everything in it is
never given back.  The same if it is freed while a close runs. -/
theorem C212_gensio_violated :
    Never [.startup {}, .runConn, .connRet, .freeIo, .runDef, .clearedIn, .clearedOut, .freeAcc] ∧
    Never [.startup {}, .runConn, .connRet, .close none, .freeIo, .runDef, .clearedIn, .clearedOut, .freeAcc] :=
  ⟨never_of _ (by decide +kernel) (by decide +kernel), never_of _ (by decide +kernel) (by decide +kernel)⟩

/-- **C212 is violated**: two calls of `gensio_acc_set_accept_callback_enable`
before the runner runs take two references, and the runner drops one
(`gensio_stdio.c:1463-1467`). -/
theorem C212_enable_violated : Never [.enable none, .enable none, .runEn, .freeAcc] :=
  never_of _ (by decide +kernel) (by decide +kernel)

/-- **C212 is violated**: every startup takes a reference for the gensio
(`gensio_stdio.c:1395`), but it is one gensio, and freeing it drops one. -/
theorem C212_again_violated :
    Never [.startup {}, .runConn, .connRet, .close none, .runDef, .clearedIn, .clearedOut, .shutdown none, .runConn,
      .look, .startup {}, .runConn, .connRet, .close none, .runDef, .clearedIn, .clearedOut, .freeIo, .shutdown none,
      .runConn, .look, .freeAcc] :=
  never_of _ (by decide +kernel) (by decide +kernel)

/-- **C212 is violated**: a startup whose second handler cannot be set loses
the reference of the first (`gensio_stdio.c:1377, 1401-1403`). -/
theorem C212_error_violated : Never [.startup { second := 1 }, .freeAcc] :=
  never_of _ (by decide +kernel) (by decide +kernel)

/-! ## What a user that has luck and care gets -/

/-- No handler fails to be set, and an enable comes only when the one before it
is done; the gensio is freed only after it is closed. -/
def Careful : S → List Ev → Prop
  | _, [] => True
  | s, e :: es =>
    (match e with
      | .startup os => s.hIn = false ∧ s.hOut = false ∧ os.first = 0 ∧ os.second = 0 ∧ s.grefs = 0 ∧ s.gFree = false
      | .enable _ => s.eq = false
      | .freeIo => s.closed = true ∧ s.inClose = false
      | _ => True) ∧ ∀ s' o, s.step e = some (s', o) → Careful s' es

/-- One gensio at most, and no reference lost. -/
def Neat (s : S) : Prop := s.lost = 0 ∧ ((s.grefs = 0) ∨ (s.grefs = 1 ∧ s.gFree = false))

theorem neat_step (s s' : S) (e : Ev) (o : List Out) (es : List Ev) (hk : Ok s e) (hs : Neat s)
    (hc : Careful s (e :: es)) (h : s.step e = some (s', o)) : Neat s' := by
  have hc := hc.1
  simp only [Neat] at *
  cases e with
  | startup os =>
    obtain ⟨c1, c2, c3, c4, c5, c6⟩ := hc
    simp only [S.step] at h
    rcases startup_cases s s' os o h with ⟨h1 | h1 | h1, -⟩ | ⟨-, -, -, -, h1⟩
    · rw [h1]; exact hs
    · simp [c1, c3] at h1
    · simp [c2, c4] at h1
    · rw [h1]; simp only; grind
  | shutdown k => simp only [S.step, S.shutdown, S.runner, S.take] at h; grind
  | enable k =>
    simp only at hc
    simp only [S.step] at h
    rcases enable_cases s s' k o h with ⟨h1, -⟩ | ⟨-, -, h1⟩ <;> rw [h1]
    · exact hs
    · simp only [hc, n_false]; grind
  | freeAcc => simp only [S.step, S.freeAcc, S.deref] at h; grind
  | close k => simp only [S.step, S.close, S.iclose, S.defer, S.take] at h; grind
  | freeIo =>
    simp only [Ok] at hk
    simp only [S.step, S.freeIo, S.iclose, S.defer, S.take, S.deref] at h
    grind
  | runConn => simp only [S.step, S.runConn] at h; have := afterShut_gone s s' o; grind
  | connRet => simp only [S.step, S.connRet] at h; have := afterShut_gone s s' o; grind
  | look => simp only [S.step, S.look] at h; have := afterShut_gone s s' o; grind
  | shutRet => simp only [S.step] at h; have := afterShut_gone s s' o; grind
  | runEn => simp only [S.step, S.runEn, S.deref] at h; grind
  | enRet => simp only [S.step, S.deref] at h; grind
  | runDef => simp only [S.step, S.runDef, S.deref] at h; grind
  | clearedIn => simp only [S.step, S.cleared, S.deref] at h; grind
  | clearedOut => simp only [S.step, S.cleared, S.deref] at h; grind
  | clearRet => simp only [S.step, S.deref] at h; grind

theorem neat_steps (es : List Ev) (s s' : S) (o : List Out) (hs : Neat s) (hp : Polite s es) (hc : Careful s es)
    (h : s.steps es = some (s', o)) : Neat s' := by
  induction es generalizing s o with
  | nil =>
    simp only [S.steps, Option.some.injEq, Prod.mk.injEq] at h
    rw [← h.1]; exact hs
  | cons e es ih =>
    simp only [S.steps] at h
    split at h
    · simp at h
    · rename_i s1 o1 h1
      split at h
      · simp at h
      · rename_i s2 o2 h2
        simp only [Option.some.injEq, Prod.mk.injEq] at h
        obtain ⟨e1, e2⟩ := h
        subst e1
        exact ih s1 o2 (neat_step s s1 e o1 es hp.1 hs hc h1) (hp.2 s1 o1 h1) (hc.2 s1 o1 h1) h2

/-- **C212, partial**: with care and luck, the memory is given back once the
user has freed the accepter and the gensio, if it was given, and everything has
run.  Partial: see the four violations above. -/
theorem C212_careful_partial (es : List Ev) (hp : Polite init es) (hc : Careful init es) :
    ∃ s o, init.steps es = some (s, o) ∧
      (s.inFree = true → (s.grefs = 0 ∨ s.gFree = true) → s.cr = .idle → s.eq = false → s.efr = 0 → s.hIn = false →
        s.hOut = false → s.defPend = false → s.cfr = 0 → s.freed = true) := by
  obtain ⟨s, o, h, hi, -⟩ := C212_memory es hp
  refine ⟨s, o, h, ?_⟩
  intro c1 c2 c3 c4 c5 c6 c7 c8 c9
  obtain ⟨n1, n2⟩ := neat_steps es init s o ⟨rfl, .inl rfl⟩ hp hc h
  refine hi.mpr ⟨c1, c3, c4, c5, c6, c7, c8, c9, ?_, n1⟩
  rcases n2 with n2 | n2
  · exact n2
  · rcases c2 with c2 | c2
    · exact c2
    · rw [n2.2] at c2; exact absurd c2 (by simp)

/-! ## Reports -/

/-- How often a call was made that returned 0. -/
def okCalls (p : Ev → Bool) : S → List Ev → Nat
  | _, [] => 0
  | s, e :: es =>
    match s.step e with
    | none => 0
    | some r => (if p e = true ∧ r.2 = [.ret 0] then 1 else 0) + okCalls p r.1 es

/-- **C213 is violated**: the gensio of a second startup is NULL, if the first
was freed (`gensio_stdio.c:866, 1296-1297`). -/
theorem C213_null_violated :
    (init.steps [.startup {}, .runConn, .connRet, .close none, .runDef, .clearedIn, .clearedOut, .freeIo,
        .shutdown none, .runConn, .look, .startup {}, .runConn]).map (·.2) =
      some [.ret 0, .newConn true, .ret 0, .ret 0, .ret 0, .newConn false] := by decide +kernel

/-- **C213 is violated**: freeing an accepter that is started up shuts it down
by its documentation (`man/gensio_acc_shutdown.3:41-42`); here it gives a new
connection afterwards. -/
theorem C213_free_violated :
    (init.steps [.startup {}, .freeAcc, .runConn]).map (·.2) = some [.ret 0, .newConn true] := by decide +kernel

/-- Reports that are due: of the enable `k`, the close `k`, the shutdown `k`. -/
def dueE (s : S) (k : Nat) : Nat := if s.edone = some k then 1 else 0
def dueC (s : S) (k : Nat) : Nat := if s.cdone = some k then 1 else 0
def dueD (s : S) (k : Nat) : Nat := if (s.inShutdown = true ∨ s.cr = .window) ∧ s.sdone = some k then 1 else 0

/-- The calls. -/
def isStartup : Ev → Bool
  | .startup _ => true
  | _ => false

/-- New connections, with a gensio or NULL. -/
def conns (o : List Out) : Nat := o.count (.newConn true) + o.count (.newConn false)

/-- A shutdown is accepted between the unlock and the look at `shutdown_done`. -/
def Race (s : S) (e : Ev) (o : List Out) : Prop := (∃ k, e = .shutdown k) ∧ s.cr = .window ∧ o = [.ret 0]

/-- What one step does to what is due. -/
structure Tally (s s' : S) (e : Ev) (o : List Out) (k : Nat) : Prop where
  te : o.count (.enab k) + dueE s' k = dueE s k + (if e = .enable (some k) ∧ o = [.ret 0] then 1 else 0)
  tc : o.count (.closeDone k) + dueC s' k ≤ dueC s k + (if e = .close (some k) ∧ o = [.ret 0] then 1 else 0)
  tu : Aux s → conns o + n s'.inStartup = n s.inStartup + (if isStartup e = true ∧ o = [.ret 0] then 1 else 0)
  td : (s.cr = .window → s.inShutdown = false) → ¬ Race s e o →
    o.count (.shut k) + dueD s' k = dueD s k + (if e = .shutdown (some k) ∧ o = [.ret 0] then 1 else 0) ∧
    (s'.cr = .window → s'.inShutdown = false)

theorem deref_tally (s s' x : S) (e : Ev) (o : List Out) (k : Nat) (h : x.deref = some (s', o))
    (h1 : x.edone = s.edone) (h2 : dueC x k ≤ dueC s k) (h3 : x.inStartup = s.inStartup)
    (h4 : dueD x k = dueD s k) (h5 : x.cr = .window → s.cr = .window) (h6 : x.inShutdown = s.inShutdown) :
    Tally s s' e o k := by
  obtain ⟨h7, h8⟩ := deref_same _ _ _ h
  have e1 : s'.edone = x.edone := by rw [h7]
  have e2 : s'.cdone = x.cdone := by rw [h7]
  have e3 : s'.inStartup = x.inStartup := by rw [h7]
  have e4 : s'.inShutdown = x.inShutdown := by rw [h7]
  have e5 : s'.cr = x.cr := by rw [h7]
  have e6 : s'.sdone = x.sdone := by rw [h7]
  have d1 : dueC s' k = dueC x k := by simp [dueC, e2]
  have d2 : dueD s' k = dueD x k := by simp [dueD, e4, e5, e6]
  have hd : (s.cr = .window → s.inShutdown = false) → (s'.cr = .window → s'.inShutdown = false) := by
    rw [e4, e5, h6]; intro a b; exact a (h5 b)
  rcases h8 with h8 | h8 <;> subst h8
  · exact ⟨by simp [dueE, e1, h1], by rw [d1]; simp; omega, by simp [conns, e3, h3],
      fun a _ => ⟨by rw [d2, h4]; simp, hd a⟩⟩
  · exact ⟨by simp [dueE, e1, h1], by rw [d1]; simp [List.count_cons]; omega, by simp [conns, e3, h3],
      fun a _ => ⟨by rw [d2, h4]; simp, hd a⟩⟩

theorem afterShut_tally (s s' : S) (e : Ev) (o : List Out) (k : Nat) (h : s.afterShut = some (s', o))
    (hw : s.cr ≠ .window ∨ s.sdone = none) (hi : s.cr ≠ .idle) : Tally s s' e o k := by
  simp only [S.afterShut] at h
  split at h
  · rename_i hs
    simp only [Option.some.injEq, Prod.mk.injEq] at h
    obtain ⟨h1, h2⟩ := h
    subst h1; subst h2
    refine ⟨by simp [dueE], by simp [dueC], ?_, ?_⟩
    · intro _; rw [hs]; cases s.io <;> simp [conns]
    · intro _ _; simp only [dueD]; rcases hw with hw | hw <;> simp [hw]
  · rename_i hs
    split at h
    · rename_i hd
      simp only [Option.some.injEq, Prod.mk.injEq] at h
      obtain ⟨h1, h2⟩ := h
      subst h1; subst h2
      refine ⟨by simp [dueE], by simp [dueC], by simp [conns], ?_⟩
      intro _ _; simp [dueD, hd]
    · rename_i hd
      exact deref_tally s s' _ e o k h rfl (Nat.le_refl _) rfl
        (by simp only [dueD]; rcases hw with hw | hw <;> simp [hw, hd]) (by simp) rfl

theorem noop_tally (s : S) (e : Ev) (o : List Out) (k : Nat) (ho : ∀ x ∈ o, ∃ c, c ≠ 0 ∧ x = .ret c) :
    Tally s s e o k := by
  have h1 : ∀ x, (∀ c, x ≠ Out.ret c) → o.count x = 0 := by
    intro x hx
    rw [List.count_eq_zero]
    intro hm
    obtain ⟨c, -, hc⟩ := ho x hm
    exact hx c hc
  have h2 : o ≠ [.ret 0] := by
    intro h
    obtain ⟨c, hc, he⟩ := ho (.ret 0) (by simp [h])
    simp at he
    exact hc he.symm
  refine ⟨?_, ?_, ?_, ?_⟩
  · rw [h1 _ (by simp)]; simp [h2]
  · rw [h1 _ (by simp)]; simp [h2]
  · intro _; simp only [conns]; rw [h1 _ (by simp), h1 _ (by simp)]; simp [h2]
  · intro hw _; rw [h1 _ (by simp)]; simp [h2]; exact hw

theorem cleanup_tally (s x : S) (e : Ev) (o : List Out) (k : Nat) (ho : ∀ y ∈ o, ∃ c, c ≠ 0 ∧ y = Out.ret c)
    (h1 : x.edone = s.edone) (h2 : x.cdone = s.cdone) (h3 : x.inStartup = s.inStartup)
    (h4 : x.inShutdown = s.inShutdown) (h5 : x.cr = s.cr) (h6 : x.sdone = s.sdone) : Tally s x e o k := by
  obtain ⟨t1, t2, t3, t4⟩ := noop_tally s e o k ho
  have d1 : dueE x k = dueE s k := by simp only [dueE, h1]
  have d2 : dueC x k = dueC s k := by simp only [dueC, h2]
  have d3 : dueD x k = dueD s k := by simp only [dueD, h4, h5, h6]
  refine ⟨by rw [d1]; exact t1, by rw [d2]; exact t2, by rw [h3]; exact t3, ?_⟩
  rw [d3, h4, h5]; exact t4

theorem iclose_eq (s s' : S) (k : Option Nat) (h : s.iclose k = some s') :
    s' = { s with closed := true, inClose := true, cdone := k, defClose := true, defPend := true, ref := s'.ref } := by
  simp only [S.iclose, S.defer] at h
  split at h
  · rename_i hd
    simp only [Option.some.injEq] at h
    subst h
    have hd : s.defPend = true := hd
    simp [hd]
  · by_cases hr : s.ref = 0
    · simp [S.take, hr] at h
    rw [take_some _ (by simp only; omega)] at h
    simp only [Option.some.injEq] at h
    subst h
    simp

theorem step_tally (s s' : S) (e : Ev) (o : List Out) (k : Nat) (h : s.step e = some (s', o)) : Tally s s' e o k := by
  have nop : ∀ x, (some (s, x) : Option (S × List Out)) = some (s', o) → (∀ y ∈ x, ∃ c, c ≠ 0 ∧ y = Out.ret c) →
      Tally s s' e o k := by
    intro x hx hy
    simp only [Option.some.injEq, Prod.mk.injEq] at hx
    obtain ⟨h1, h2⟩ := hx
    subst h1; subst h2
    exact noop_tally s e x k hy
  cases e with
  | startup os =>
    simp only [S.step] at h
    rcases startup_cases s s' os o h with ⟨h1, c, hc, ho⟩ | ⟨ho, -, hsd, hen, h1⟩
    · subst ho
      have hx : ∀ y ∈ [Out.ret c], ∃ c, c ≠ 0 ∧ y = Out.ret c := by
        intro y hy; exact ⟨c, hc, by simpa using hy⟩
      rcases h1 with h1 | ⟨h1, -⟩ | ⟨h1, -⟩ <;> subst h1
      · exact noop_tally _ _ _ k hx
      · exact cleanup_tally _ _ _ _ k hx rfl rfl rfl rfl rfl rfl
      · exact cleanup_tally _ _ _ _ k hx rfl rfl rfl rfl rfl rfl
    · subst ho
      have e1 : s'.edone = s.edone := by rw [h1]
      have e2 : s'.cdone = s.cdone := by rw [h1]
      have e3 : s'.inStartup = true := by rw [h1]
      have e4 : s'.inShutdown = false := by rw [h1]; exact hsd
      have e5 : s'.sdone = s.sdone := by rw [h1]
      have e6 : s'.cr = .window ↔ s.cr = .window := by
        rw [h1]; simp only
        by_cases hc : s.cr = .idle <;> simp [hc]
      refine ⟨by simp [dueE, e1], by simp [dueC, e2], ?_, ?_⟩
      · intro ha
        have : s.inStartup = false := by
          cases hs : s.inStartup with
          | false => rfl
          | true => have := (ha.up hs).2; simp [hsd, hen] at this
        simp [conns, e3, this, isStartup]
      · intro hw _
        exact ⟨by simp [dueD, e4, e5, e6, hsd], fun _ => e4⟩
  | shutdown j =>
    simp only [S.step, S.shutdown] at h
    split at h
    · exact nop _ h (by simp [GE_NOTREADY])
    split at h
    · exact nop _ h (by simp [GE_NOTREADY])
    rename_i hsd
    simp only [not_or, Bool.not_eq_true, Bool.not_eq_false] at hsd
    by_cases hr : s.ref = 0
    · simp only [S.runner, S.take, hr] at h
      by_cases hc : s.cr = .idle
      · simp [hc] at h
      · simp only [hc, ↓reduceIte, Option.some.injEq, Prod.mk.injEq] at h
        obtain ⟨h1, h2⟩ := h
        subst h1; subst h2
        refine ⟨by simp [dueE], by simp [dueC], by simp [conns, isStartup], ?_⟩
        intro hw hn
        have hcw : s.cr ≠ .window := fun hcw => hn ⟨⟨j, rfl⟩, hcw, rfl⟩
        refine ⟨?_, fun hx => absurd hx hcw⟩
        simp [dueD, hcw, hsd.1]
    rw [runner_eq _ (by simp only; omega)] at h
    simp only [Option.some.injEq, Prod.mk.injEq] at h
    obtain ⟨h1, h2⟩ := h
    subst h2
    have e1 : s'.edone = s.edone := by rw [← h1]; split <;> rfl
    have e2 : s'.cdone = s.cdone := by rw [← h1]; split <;> rfl
    have e3 : s'.inStartup = s.inStartup := by rw [← h1]; split <;> rfl
    have e4 : s'.inShutdown = true := by rw [← h1]; split <;> rfl
    have e5 : s'.sdone = j := by rw [← h1]; split <;> rfl
    have e6 : s'.cr = .window → s.cr = .window := by
      rw [← h1]
      by_cases hc : s.cr = .idle <;> simp [hc]
    refine ⟨by simp [dueE, e1], by simp [dueC, e2], by simp [conns, isStartup, e3], ?_⟩
    intro hw hn
    have hcw : s.cr ≠ .window := fun hcw => hn ⟨⟨j, rfl⟩, hcw, rfl⟩
    refine ⟨?_, fun hx => absurd (e6 hx) hcw⟩
    simp [dueD, hcw, hsd.1, e4, e5]
  | enable j =>
    simp only [S.step] at h
    rcases enable_cases s s' j o h with ⟨h1, -, h3⟩ | ⟨h1, h2, h3⟩
    · subst h1; subst h3
      exact noop_tally _ _ _ k (by simp [GE_INUSE])
    · subst h2; subst h3
      refine ⟨by simp [dueE, h1], by simp [dueC], by simp [conns, isStartup], ?_⟩
      intro hw _; exact ⟨by simp [dueD], hw⟩
  | freeAcc =>
    exact deref_tally s s' { s with inFree := true } _ o k h rfl (Nat.le_refl _) rfl rfl id rfl
  | close j =>
    simp only [S.step, S.close] at h
    split at h
    · exact nop _ h (by simp [GE_NOTREADY])
    split at h
    · simp at h
    rename_i x hx
    have hx := iclose_eq s x j hx
    simp only [Option.some.injEq, Prod.mk.injEq] at h
    obtain ⟨h1, h2⟩ := h
    subst h1; subst h2
    rw [hx]
    refine ⟨by simp [dueE], ?_, by simp [conns, isStartup], ?_⟩
    · simp [dueC]
    · intro hw _; exact ⟨by simp [dueD], hw⟩
  | freeIo =>
    simp only [S.step, S.freeIo] at h
    split at h
    · simp only [Option.some.injEq, Prod.mk.injEq] at h
      obtain ⟨h1, h2⟩ := h
      subst h1; subst h2
      refine ⟨by simp [dueE], by simp [dueC], by simp [conns], ?_⟩
      intro hw _; exact ⟨by simp [dueD], hw⟩
    split at h
    · exact deref_tally s s' _ _ o k h rfl (Nat.le_refl _) rfl rfl id rfl
    split at h
    · simp at h
    rename_i x hx
    have hx := iclose_eq _ x none hx
    simp only [Option.some.injEq, Prod.mk.injEq] at h
    obtain ⟨h1, h2⟩ := h
    subst h1; subst h2
    rw [hx]
    refine ⟨by simp [dueE], by simp [dueC], by simp [conns], ?_⟩
    intro hw _; exact ⟨by simp [dueD], hw⟩
  | runConn =>
    simp only [S.step, S.runConn] at h
    split at h
    · rename_i hc
      exact afterShut_tally s s' _ o k h (.inl (by simp [hc])) (by simp [hc])
    · exact nop _ h (by simp)
  | connRet =>
    simp only [S.step, S.connRet] at h
    split at h
    · rename_i hc
      split at h
      · rename_i hd
        simp only [Option.some.injEq, Prod.mk.injEq] at h
        obtain ⟨h1, h2⟩ := h
        subst h1; subst h2
        refine ⟨by simp [dueE], by simp [dueC], by simp [conns], ?_⟩
        intro _ _; simp [dueD, hd]
      · exact afterShut_tally s s' _ o k h (.inl (by simp [hc])) (by simp [hc])
    · exact nop _ h (by simp)
  | look =>
    simp only [S.step, S.look] at h
    split at h
    · rename_i hc
      split at h
      · rename_i j hj
        simp only [Option.some.injEq, Prod.mk.injEq] at h
        obtain ⟨h1, h2⟩ := h
        subst h1; subst h2
        refine ⟨by simp [dueE], by simp [dueC], by simp [conns], ?_⟩
        intro hw _
        have := hw hc
        by_cases hjk : j = k
        · subst hjk; simp [dueD, this, hc, hj]
        · simp [dueD, this, hc, hj, hjk, List.count_cons]
      · rename_i hn
        exact afterShut_tally s s' _ o k h (.inr hn) (by simp [hc])
    · exact nop _ h (by simp)
  | shutRet =>
    simp only [S.step] at h
    split at h
    · rename_i hc
      exact afterShut_tally s s' _ o k h (.inl (by simp [hc])) (by simp [hc])
    · exact nop _ h (by simp)
  | runEn =>
    simp only [S.step, S.runEn] at h
    split at h
    · split at h
      · rename_i j hj
        simp only [Option.some.injEq, Prod.mk.injEq] at h
        obtain ⟨h1, h2⟩ := h
        subst h1; subst h2
        refine ⟨?_, by simp [dueC], by simp [conns], ?_⟩
        · by_cases hjk : j = k
          · subst hjk; simp [dueE, hj]
          · simp [dueE, hj, hjk, List.count_cons]
        · intro hw _; exact ⟨by simp [dueD], hw⟩
      · exact deref_tally s s' _ _ o k h rfl (Nat.le_refl _) rfl rfl id rfl
    · exact nop _ h (by simp)
  | enRet =>
    simp only [S.step] at h
    split at h
    · exact nop _ h (by simp)
    · exact deref_tally s s' _ _ o k h rfl (Nat.le_refl _) rfl rfl id rfl
  | runDef =>
    simp only [S.step, S.runDef] at h
    split at h
    · split at h
      · exact deref_tally s s' _ _ o k h rfl (Nat.le_refl _) rfl rfl id rfl
      · exact deref_tally s s' _ _ o k h rfl (Nat.le_refl _) rfl rfl id rfl
    · exact nop _ h (by simp)
  | clearedIn =>
    simp only [S.step, S.cleared] at h
    split at h
    · split at h
      · split at h
        · rename_i j hj
          simp only [Option.some.injEq, Prod.mk.injEq] at h
          obtain ⟨h1, h2⟩ := h
          subst h1; subst h2
          refine ⟨by simp [dueE], ?_, by simp [conns], ?_⟩
          · by_cases hjk : j = k
            · subst hjk; simp [dueC, hj]
            · simp [dueC, hj, hjk, List.count_cons]
          · intro hw _; exact ⟨by simp [dueD], hw⟩
        · exact deref_tally s s' _ _ o k h rfl (Nat.le_refl _) rfl rfl id rfl
      · exact deref_tally s s' _ _ o k h rfl (Nat.le_refl _) rfl rfl id rfl
    · exact nop _ h (by simp)
  | clearedOut =>
    simp only [S.step, S.cleared] at h
    split at h
    · split at h
      · split at h
        · rename_i j hj
          simp only [Option.some.injEq, Prod.mk.injEq] at h
          obtain ⟨h1, h2⟩ := h
          subst h1; subst h2
          refine ⟨by simp [dueE], ?_, by simp [conns], ?_⟩
          · by_cases hjk : j = k
            · subst hjk; simp [dueC, hj]
            · simp [dueC, hj, hjk, List.count_cons]
          · intro hw _; exact ⟨by simp [dueD], hw⟩
        · exact deref_tally s s' _ _ o k h rfl (Nat.le_refl _) rfl rfl id rfl
      · exact deref_tally s s' _ _ o k h rfl (Nat.le_refl _) rfl rfl id rfl
    · exact nop _ h (by simp)
  | clearRet =>
    simp only [S.step] at h
    split at h
    · exact nop _ h (by simp)
    · exact deref_tally s s' _ _ o k h rfl (Nat.le_refl _) rfl rfl id rfl

/-- No shutdown is accepted between the unlock and the look. -/
def NoRace : S → List Ev → Prop
  | _, [] => True
  | s, e :: es => ∀ s' o, s.step e = some (s', o) → ¬ Race s e o ∧ NoRace s' es

theorem steps_tally (es : List Ev) (s s' : S) (o : List Out) (k : Nat) (h : s.steps es = some (s', o)) :
    (o.count (.enab k) + dueE s' k = dueE s k + okCalls (· == .enable (some k)) s es) ∧
    (o.count (.closeDone k) + dueC s' k ≤ dueC s k + okCalls (· == .close (some k)) s es) ∧
    (Inv s → Polite s es → conns o + n s'.inStartup = n s.inStartup + okCalls isStartup s es) ∧
    ((s.cr = .window → s.inShutdown = false) → NoRace s es →
      o.count (.shut k) + dueD s' k = dueD s k + okCalls (· == .shutdown (some k)) s es) := by
  induction es generalizing s o with
  | nil =>
    simp only [S.steps, Option.some.injEq, Prod.mk.injEq] at h
    obtain ⟨h1, h2⟩ := h
    subst h1; subst h2
    simp [okCalls, conns]
  | cons e es ih =>
    simp only [S.steps] at h
    split at h
    · simp at h
    · rename_i s1 o1 h1
      split at h
      · simp at h
      · rename_i s2 o2 h2
        simp only [Option.some.injEq, Prod.mk.injEq] at h
        obtain ⟨e1, e2⟩ := h
        subst e1; subst e2
        obtain ⟨t1, t2, t3, t4⟩ := step_tally s s1 e o1 k h1
        obtain ⟨i1, i2, i3, i4⟩ := ih s1 o2 h2
        simp only [okCalls, h1, List.count_append, beq_iff_eq]
        refine ⟨by omega, by omega, ?_, ?_⟩
        · intro hi hp
          obtain ⟨x, y, hx, hxi⟩ := step_inv s e hi hp.1
          rw [h1] at hx
          simp only [Option.some.injEq, Prod.mk.injEq] at hx
          have hx := hx.1
          subst hx
          have a1 := t3 hi.aux
          have a2 := i3 hxi (hp.2 s1 o1 h1)
          simp only [conns, List.count_append] at a1 a2 ⊢
          omega
        · intro hw hn
          obtain ⟨n1, n2⟩ := hn s1 o1 h1
          obtain ⟨a1, a2⟩ := t4 hw n1
          have a3 := i4 a2 n2
          omega

/-- **C213**: every call of `gensio_acc_set_accept_callback_enable_cb` that was
accepted is reported exactly once, or its report is due; a close of the gensio
is reported at most once for every call. -/
theorem C213_once (es : List Ev) (s : S) (o : List Out) (k : Nat) (h : init.steps es = some (s, o)) :
    o.count (.enab k) + (if s.edone = some k then 1 else 0) = okCalls (· == .enable (some k)) init es ∧
    o.count (.closeDone k) ≤ okCalls (· == .close (some k)) init es := by
  obtain ⟨h1, h2, -, -⟩ := steps_tally es init s o k h
  have e1 : dueE init k = 0 := rfl
  have e2 : dueC init k = 0 := rfl
  rw [e1] at h1; rw [e2] at h2
  refine ⟨by simpa [dueE] using h1, by omega⟩

/-- **C213**: for a user that calls nothing after a free, every startup that
succeeded gives one new connection, or its connection is due. -/
theorem C213_conn (es : List Ev) (s : S) (o : List Out) (h : init.steps es = some (s, o)) (hp : Polite init es) :
    o.count (.newConn true) + o.count (.newConn false) + (if s.inStartup then 1 else 0) = okCalls isStartup init es := by
  obtain ⟨-, -, h3, -⟩ := steps_tally es init s o 0 h
  have := h3 init_inv hp
  simpa [conns, n, init] using this

/-- **C213, partial**: every shutdown that was accepted is reported exactly
once, or its report is due.  Partial: if no other shutdown is accepted between
the unlock and the look at `shutdown_done`; see `C213_window_violated`. -/
theorem C213_shut_partial (es : List Ev) (s : S) (o : List Out) (k : Nat) (h : init.steps es = some (s, o))
    (hn : NoRace init es) :
    o.count (.shut k) + (if (s.inShutdown = true ∨ s.cr = .window) ∧ s.sdone = some k then 1 else 0) =
      okCalls (· == .shutdown (some k)) init es := by
  obtain ⟨-, -, -, h4⟩ := steps_tally es init s o k h
  have := h4 (by simp [init]) hn
  have e1 : dueD init k = 0 := rfl
  rw [e1] at this
  simpa [dueD] using this

example : okCalls (· == .shutdown (some 3)) init life = 1 ∧ okCalls (· == .enable (some 2)) init life = 1 ∧
    okCalls isStartup init life = 1 ∧ okCalls (· == .close (some 1)) init life = 1 := by decide +kernel

/-- A close that has no handler left to end it. -/
def Stuck (s : S) : Prop := s.inClose = true ∧ s.defClose = false ∧ s.cIn = false ∧ s.cOut = false

theorem stuck_afterShut (s s' : S) (o : List Out) (h : s.afterShut = some (s', o)) :
    (s'.inClose = s.inClose ∧ s'.defClose = s.defClose ∧ s'.cIn = s.cIn ∧ s'.cOut = s.cOut) ∧
      ∀ k, Out.closeDone k ∉ o := by
  simp only [S.afterShut, S.deref] at h
  grind

theorem stuck_step (s s' : S) (e : Ev) (o : List Out) (hs : Stuck s) (h : s.step e = some (s', o)) :
    Stuck s' ∧ ∀ k, Out.closeDone k ∉ o := by
  obtain ⟨h1, h2, h3, h4⟩ := hs
  simp only [Stuck]
  cases e with
  | startup os =>
    simp only [S.step] at h
    rcases startup_cases s s' os o h with ⟨hx, c, -, ho⟩ | ⟨ho, -, -, -, hx⟩
    · subst ho
      rcases hx with hx | ⟨hx, -⟩ | ⟨hx, -⟩ <;> subst hx <;> simp [S.cleanup, h1, h2, h3, h4]
    · rw [ho, hx]; simp [h1, h2, h3, h4]
  | shutdown k => simp only [S.step, S.shutdown, S.runner, S.take] at h; grind
  | enable k =>
    simp only [S.step] at h
    rcases enable_cases s s' k o h with ⟨hx, -, ho⟩ | ⟨-, ho, hx⟩ <;> subst ho <;> subst hx <;> simp [h1, h2, h3, h4]
  | freeAcc => simp only [S.step, S.freeAcc, S.deref] at h; grind
  | close k => simp only [S.step, S.close, h1] at h; grind
  | freeIo => simp only [S.step, S.freeIo, h1] at h; grind
  | runConn => simp only [S.step, S.runConn] at h; have := stuck_afterShut s s' o; grind
  | connRet => simp only [S.step, S.connRet] at h; have := stuck_afterShut s s' o; grind
  | look => simp only [S.step, S.look] at h; have := stuck_afterShut s s' o; grind
  | shutRet => simp only [S.step] at h; have := stuck_afterShut s s' o; grind
  | runEn => simp only [S.step, S.runEn, S.deref] at h; grind
  | enRet => simp only [S.step, S.deref] at h; grind
  | runDef => simp only [S.step, S.runDef, S.deref, h2] at h; grind
  | clearedIn => simp only [S.step, h3] at h; grind
  | clearedOut => simp only [S.step, h4] at h; grind
  | clearRet => simp only [S.step, S.deref] at h; grind

theorem stuck_steps (es : List Ev) (s s' : S) (o : List Out) (hs : Stuck s) (h : s.steps es = some (s', o)) :
    ∀ k, Out.closeDone k ∉ o := by
  induction es generalizing s o with
  | nil =>
    simp only [S.steps, Option.some.injEq, Prod.mk.injEq] at h
    rw [← h.2]; simp
  | cons e es ih =>
    simp only [S.steps] at h
    split at h
    · simp at h
    · rename_i s1 o1 h1
      split at h
      · simp at h
      · rename_i s2 o2 h2
        simp only [Option.some.injEq, Prod.mk.injEq] at h
        obtain ⟨e1, e2⟩ := h
        subst e1; subst e2
        obtain ⟨a1, a2⟩ := stuck_step s s1 e o1 hs h1
        intro k hk
        rcases List.mem_append.mp hk with hk | hk
        · exact a2 k hk
        · exact ih s1 o2 a1 h2 k hk

/-- **C213 is violated**: a startup while the gensio of the one before is open
is refused with `GE_INUSE`, but drops the handlers of that gensio without a
report (`gensio_stdio.c:1401-1403, 676-681`).  A close of it is accepted and
never ends, whatever follows. -/
theorem C213_refused_violated :
    ∃ s, init.steps [.startup {}, .runConn, .connRet, .shutdown none, .runConn, .look, .startup {}, .close (some 5),
        .runDef] = some (s, [.ret 0, .newConn true, .ret 0, .ret GE_INUSE, .ret 0]) ∧
      ∀ es s' o, s.steps es = some (s', o) → Out.closeDone 5 ∉ o := by
  refine ⟨_, rfl, ?_⟩
  intro es s' o h
  exact stuck_steps es _ s' o ⟨rfl, rfl, rfl, rfl⟩ h 5

theorem quiet_afterShut (s s' : S) (o : List Out) (h : s.afterShut = some (s', o)) :
    s'.sdone = s.sdone ∧ ∀ k, Out.shut k ∉ o := by
  simp only [S.afterShut, S.deref] at h
  grind

theorem quiet_step (s s' : S) (e : Ev) (o : List Out) (k : Nat) (hs : s.sdone ≠ some k)
    (he : e ≠ .shutdown (some k)) (h : s.step e = some (s', o)) : s'.sdone ≠ some k ∧ Out.shut k ∉ o := by
  cases e with
  | startup os =>
    simp only [S.step] at h
    rcases startup_cases s s' os o h with ⟨hx, c, -, ho⟩ | ⟨ho, -, -, -, hx⟩
    · subst ho
      rcases hx with hx | ⟨hx, -⟩ | ⟨hx, -⟩ <;> subst hx <;> simp [S.cleanup, hs]
    · rw [ho, hx]; simp [hs]
  | shutdown j => simp only [S.step, S.shutdown, S.runner, S.take] at h; grind
  | enable j =>
    simp only [S.step] at h
    rcases enable_cases s s' j o h with ⟨hx, -, ho⟩ | ⟨-, ho, hx⟩ <;> subst ho <;> subst hx <;> simp [hs]
  | freeAcc => simp only [S.step, S.freeAcc, S.deref] at h; grind
  | close j => simp only [S.step, S.close, S.iclose, S.defer, S.take] at h; grind
  | freeIo => simp only [S.step, S.freeIo, S.iclose, S.defer, S.take, S.deref] at h; grind
  | runConn => simp only [S.step, S.runConn] at h; have := quiet_afterShut s s' o; grind
  | connRet => simp only [S.step, S.connRet] at h; have := quiet_afterShut s s' o; grind
  | look => simp only [S.step, S.look] at h; have := quiet_afterShut s s' o; grind
  | shutRet => simp only [S.step] at h; have := quiet_afterShut s s' o; grind
  | runEn => simp only [S.step, S.runEn, S.deref] at h; grind
  | enRet => simp only [S.step, S.deref] at h; grind
  | runDef => simp only [S.step, S.runDef, S.deref] at h; grind
  | clearedIn => simp only [S.step, S.cleared, S.deref] at h; grind
  | clearedOut => simp only [S.step, S.cleared, S.deref] at h; grind
  | clearRet => simp only [S.step, S.deref] at h; grind

theorem quiet_steps (es : List Ev) (s s' : S) (o : List Out) (k : Nat) (hs : s.sdone ≠ some k)
    (he : Ev.shutdown (some k) ∉ es) (h : s.steps es = some (s', o)) : Out.shut k ∉ o := by
  induction es generalizing s o with
  | nil =>
    simp only [S.steps, Option.some.injEq, Prod.mk.injEq] at h
    rw [← h.2]; simp
  | cons e es ih =>
    simp only [S.steps] at h
    split at h
    · simp at h
    · rename_i s1 o1 h1
      split at h
      · simp at h
      · rename_i s2 o2 h2
        simp only [Option.some.injEq, Prod.mk.injEq] at h
        obtain ⟨e1, e2⟩ := h
        subst e1; subst e2
        obtain ⟨a1, a2⟩ := quiet_step s s1 e o1 k hs (fun hx => he (hx ▸ List.mem_cons_self ..)) h1
        intro hk
        rcases List.mem_append.mp hk with hk | hk
        · exact a2 hk
        · exact ih s1 o2 a1 (fun hx => he (List.mem_cons_of_mem _ hx)) h2 hk

/-- **C213 is violated**: `stdiona_do_connect` looks at `shutdown_done` after
it has given up the lock (`gensio_stdio.c:1303-1305`).  If the accepter is
started and shut down again in between, the second report is given twice, and
the first never comes, whatever follows. -/
theorem C213_window_violated :
    ∃ s, (init.steps [.startup {}, .runConn, .connRet, .close none, .runDef, .clearedIn, .clearedOut,
        .shutdown (some 1), .runConn, .startup {}, .shutdown (some 2), .look, .shutRet, .connRet, .look, .shutRet]) =
      some (s, [.ret 0, .newConn true, .ret 0, .ret 0, .ret 0, .ret 0, .shut 2, .newConn true, .shut 2]) ∧
      ∀ es s' o, Ev.shutdown (some 1) ∉ es → s.steps es = some (s', o) → Out.shut 1 ∉ o := by
  refine ⟨_, rfl, ?_⟩
  intro es s' o he h
  exact quiet_steps es _ s' o 1 (by simp) he h

/-- No close callback is left to call. -/
def Quiet (s : S) : Prop := s.cdone = none ∨ s.inClose = false

theorem afterShut_quiet (s s' : S) (o : List Out) (h : s.afterShut = some (s', o)) :
    s'.cdone = s.cdone ∧ s'.inClose = s.inClose ∧ ∀ k, Out.closeDone k ∉ o := by
  simp only [S.afterShut, S.deref] at h
  grind

theorem mute_step (s s' : S) (e : Ev) (o : List Out) (he : ∀ k, e ≠ .close k) (hq : Quiet s ∨ e = .freeIo)
    (h : s.step e = some (s', o)) : Quiet s' ∧ ∀ k, Out.closeDone k ∉ o := by
  simp only [Quiet] at *
  cases e with
  | startup os =>
    simp only [S.step] at h
    rcases startup_cases s s' os o h with ⟨h1 | h1 | h1, e, -, h2⟩ | ⟨h2, -, -, -, h1⟩
    · rw [h1, h2]; simpa using hq
    · rw [h1.1, h2]; simp only [S.cleanup]; simpa using hq
    · rw [h1.1, h2]; simp only [S.cleanup]; simpa using hq
    · rw [h1, h2]; simpa using hq
  | shutdown k => simp only [S.step, S.shutdown, S.runner, S.take] at h; grind
  | enable k =>
    simp only [S.step] at h
    rcases enable_cases s s' k o h with ⟨h1, -, h2⟩ | ⟨-, h2, h1⟩ <;> rw [h1, h2]
    · simpa using hq
    · simpa using hq
  | freeAcc => simp only [S.step, S.freeAcc, S.deref] at h; grind
  | close k => exact absurd rfl (he k)
  | freeIo => simp only [S.step, S.freeIo, S.iclose, S.defer, S.take, S.deref] at h; grind
  | runConn => simp only [S.step, S.runConn] at h; have := afterShut_quiet s s' o; grind
  | connRet => simp only [S.step, S.connRet] at h; have := afterShut_quiet s s' o; grind
  | look => simp only [S.step, S.look] at h; have := afterShut_quiet s s' o; grind
  | shutRet => simp only [S.step] at h; have := afterShut_quiet s s' o; grind
  | runEn => simp only [S.step, S.runEn, S.deref] at h; grind
  | enRet => simp only [S.step, S.deref] at h; grind
  | runDef => simp only [S.step, S.runDef, S.deref] at h; grind
  | clearedIn => simp only [S.step, S.cleared, S.deref] at h; grind
  | clearedOut => simp only [S.step, S.cleared, S.deref] at h; grind
  | clearRet => simp only [S.step, S.deref] at h; grind

theorem mute_steps (es : List Ev) (s s' : S) (o : List Out) (he : ∀ k, Ev.close k ∉ es) (hq : Quiet s)
    (h : s.steps es = some (s', o)) (k : Nat) : Out.closeDone k ∉ o := by
  induction es generalizing s s' o with
  | nil =>
    simp only [S.steps, Option.some.injEq, Prod.mk.injEq] at h
    simp [← h.2]
  | cons e es ih =>
    simp only [S.steps] at h
    cases h1 : s.step e with
    | none => simp [h1] at h
    | some r =>
      obtain ⟨s1, o1⟩ := r
      cases h2 : s1.steps es with
      | none => simp [h1, h2] at h
      | some r2 =>
        obtain ⟨s2, o2⟩ := r2
        simp only [h1, h2, Option.some.injEq, Prod.mk.injEq] at h
        obtain ⟨q1, q2⟩ := mute_step s s1 e o1 (fun k hk => he k (by simp [hk])) (.inl hq) h1
        have := ih s1 s2 o2 (fun k hk => he k (List.mem_cons_of_mem _ hk)) q1 h2
        rw [← h.2]
        simp [q2 k, this]

/-- **C213**: after the gensio is freed, no callback of a close is called, even
if a close was under way. -/
theorem C213_quiet (s s' : S) (es : List Ev) (o : List Out) (he : ∀ k, Ev.close k ∉ es)
    (h : s.steps (.freeIo :: es) = some (s', o)) (k : Nat) : Out.closeDone k ∉ o := by
  simp only [S.steps] at h
  cases h1 : s.step .freeIo with
  | none => simp [h1] at h
  | some r =>
    obtain ⟨s1, o1⟩ := r
    cases h2 : s1.steps es with
    | none => simp [h1, h2] at h
    | some r2 =>
      obtain ⟨s2, o2⟩ := r2
      simp only [h1, h2, Option.some.injEq, Prod.mk.injEq] at h
      obtain ⟨q1, q2⟩ := mute_step s s1 .freeIo o1 (by simp) (.inr rfl) h1
      have := mute_steps es s1 s2 o2 he q1 h2 k
      rw [← h.2]
      simp [q2 k, this]

/-- With and without the free. -/
example :
    (init.steps [.startup {}, .runConn, .connRet, .close (some 5), .runDef, .clearedIn, .clearedOut]).any
      (fun r => r.2.contains (.closeDone 5)) = true ∧
    (init.steps [.startup {}, .runConn, .connRet, .close (some 5), .freeIo, .runDef, .clearedIn, .clearedOut]).any
      (fun r => r.2.contains (.closeDone 5)) = false := by decide +kernel

theorem afterShut_closed (s s' : S) (o : List Out) (h : s.afterShut = some (s', o)) : s'.closed = s.closed := by
  simp only [S.afterShut, S.deref] at h
  grind

theorem closed_step (s s' : S) (e : Ev) (o : List Out) (he : ∀ os, e ≠ .startup os)
    (hc : s.closed = true ∨ ∃ k, e = .close k) (h : s.step e = some (s', o)) :
    s'.closed = true ∨ s.inClose = true ∧ s' = s := by
  cases e with
  | startup os => exact absurd rfl (he os)
  | shutdown k => simp only [S.step, S.shutdown, S.runner, S.take] at h; grind
  | enable k =>
    simp only [S.step] at h
    rcases enable_cases s s' k o h with ⟨h1, -⟩ | ⟨-, -, h1⟩ <;> rw [h1] <;> left <;> simpa using hc
  | freeAcc => simp only [S.step, S.freeAcc, S.deref] at h; grind
  | close k => simp only [S.step, S.close, S.iclose, S.defer, S.take] at h; grind
  | freeIo => simp only [S.step, S.freeIo, S.iclose, S.defer, S.take, S.deref] at h; grind
  | runConn => simp only [S.step, S.runConn] at h; have := afterShut_closed s s' o; grind
  | connRet => simp only [S.step, S.connRet] at h; have := afterShut_closed s s' o; grind
  | look => simp only [S.step, S.look] at h; have := afterShut_closed s s' o; grind
  | shutRet => simp only [S.step] at h; have := afterShut_closed s s' o; grind
  | runEn => simp only [S.step, S.runEn, S.deref] at h; grind
  | enRet => simp only [S.step, S.deref] at h; grind
  | runDef => simp only [S.step, S.runDef, S.deref] at h; grind
  | clearedIn => simp only [S.step, S.cleared, S.deref] at h; grind
  | clearedOut => simp only [S.step, S.cleared, S.deref] at h; grind
  | clearRet => simp only [S.step, S.deref] at h; grind

theorem closed_steps (es : List Ev) (s s' : S) (o : List Out) (he : ∀ os, Ev.startup os ∉ es) (hc : s.closed = true)
    (h : s.steps es = some (s', o)) : s'.closed = true := by
  induction es generalizing s s' o with
  | nil =>
    simp only [S.steps, Option.some.injEq, Prod.mk.injEq] at h
    rw [← h.1]; exact hc
  | cons e es ih =>
    simp only [S.steps] at h
    cases h1 : s.step e with
    | none => simp [h1] at h
    | some r =>
      obtain ⟨s1, o1⟩ := r
      cases h2 : s1.steps es with
      | none => simp [h1, h2] at h
      | some r2 =>
        obtain ⟨s2, o2⟩ := r2
        simp only [h1, h2, Option.some.injEq, Prod.mk.injEq] at h
        rw [← h.1]
        refine ih s1 s2 o2 (fun k hk => he k (List.mem_cons_of_mem _ hk)) ?_ h2
        rcases closed_step s s1 e o1 (fun k hk => he k (by simp [hk])) (.inl hc) h1 with h | h
        · exact h
        · rw [h.2]; exact hc

/-- **C213**: once a close was accepted every further close is refused, during
the close and after it, and changes nothing, until the next startup. -/
theorem C213_close_once (s s' s'' : S) (k j : Option Nat) (es : List Ev) (o : List Out)
    (h0 : s.step (.close k) = some (s', [.ret 0])) (he : ∀ os, Ev.startup os ∉ es)
    (h : s'.steps es = some (s'', o)) : s''.step (.close j) = some (s'', [.ret GE_NOTREADY]) := by
  have h1 : s'.closed = true := by
    simp only [S.step, S.close, S.iclose, S.defer, S.take, GE_NOTREADY] at h0
    grind
  have h2 := closed_steps es s' s'' o he h1 h
  simp [S.step, S.close, h2]

example : (init.steps [.startup {}, .runConn, .connRet, .close (some 5), .runDef, .clearedIn, .clearedOut, .clearRet,
    .close (some 6)]).map (fun r => r.2) =
    some [.ret 0, .newConn true, .ret 0, .closeDone 5, .ret GE_NOTREADY] := by decide +kernel

end Gensio.StdioAcc
