import Verif.Model.Script
/-!
# C199–C202: the script filter
-/
namespace Gensio.Script

/-- The two ways an error ends: the script's gensio is closed, or the open fails now. -/
theorem handleErr_cases {s s' : S} {err : Nat} {f : Fin} {o : Out} (he : err ≠ 0) (h : s.handleErr err f = some (s', o)) :
    s.io ≠ .none ∧
    ((s.st = .inOpen ∧ err = remClose ∧ s.io = .opened ∧ s' = { s with err := 0, io := .closing } ∧ o = {}) ∨
     (∃ e, e ≠ 0 ∧ s' = { s with err := e, rEn := false, wEn := false, st := .openFail, io := .none, freed := s.freed + 1, bad := true } ∧
       o = { done := some e })) := by
  have hfail : ∀ e, e ≠ 0 → s.io ≠ .none → s.fail e f = some (
      { s with err := e, rEn := false, wEn := false, st := .openFail, io := .none, freed := s.freed + 1, bad := true }, { done := some e }) := by
    intro e he hio
    simp [S.fail, S.finish, hio, he]
  unfold S.handleErr at h
  simp only at h
  by_cases hio : s.io = .none
  · rw [hio] at h
    simp only [S.fail, hio, if_true, ite_self] at h
    exact absurd h (by simp)
  refine ⟨hio, ?_⟩
  by_cases hr : s.st = .inOpen ∧ err = remClose
  · rw [if_pos hr, if_neg (by simp), if_neg hio] at h
    generalize hk : (if s.io = .opened then f.cerr else notReady) = k at h
    by_cases hk0 : k = 0
    · rw [if_neg (by simp [hk0])] at h
      simp only [Option.some.injEq, Prod.mk.injEq] at h
      refine Or.inl ⟨hr.1, hr.2, ?_, h.1.symm, h.2.symm⟩
      apply Decidable.byContradiction
      intro hne
      rw [if_neg hne] at hk
      rw [hk0] at hk
      exact absurd hk (by decide)
    · rw [if_pos hk0, hfail k hk0 hio] at h
      simp only [Option.some.injEq, Prod.mk.injEq] at h
      exact Or.inr ⟨k, hk0, h.1.symm, h.2.symm⟩
  · rw [if_neg hr, if_pos he, hfail err he hio] at h
    simp only [Option.some.injEq, Prod.mk.injEq] at h
    exact Or.inr ⟨err, he, h.1.symm, h.2.symm⟩

theorem handleErr_some {s : S} {err : Nat} {f : Fin} (hio : s.io ≠ .none) : ∃ r, s.handleErr err f = some r := by
  have hfail : ∀ e, ∃ r, s.fail e f = some r := by
    intro e
    simp [S.fail, S.finish, hio]
  unfold S.handleErr
  simp only
  generalize (if s.st = .inOpen ∧ err = remClose then 0 else err) = e
  generalize (if s.io = .opened then f.cerr else notReady) = k
  rw [if_neg hio]
  split
  · exact hfail _
  · split
    · exact hfail _
    · exact ⟨_, rfl⟩

/-- What the base does: it sets a filter up when it is cleaned up, does not use it between cleanup and setup, connects it after a setup, and has
one write at a time, not before the script's gensio is open (`ll_write_pending` is false then). -/
def Ok (s : S) (n : N) : Ev → Prop
  | .setup => s.io = .none ∧ s.inUl = none
  | .cleanup => s.inUl = none
  | .tryConnect _ _ => n.dones = []
  | .tryDisconnect => s.inUl = none
  | .ulBegin => s.inUl = none ∧ s.st ≠ .subOpen ∧ (s.st = .inOpen → s.io ≠ .none)
  | .llWrite _ => s.st = .inOpen → s.io ≠ .none
  | _ => True

/-- A history of the base. -/
def Polite (P : S → N → Ev → Prop) (s : S) (n : N) : List Ev → Prop
  | [] => True
  | ev :: evs => P s n ev ∧ ∀ s' o, s.step ev = some (s', o) → Polite P s' (n.note s o ev) evs

/-- The state of a session and what was seen of it. -/
structure Inv (s : S) (n : N) : Prop where
  io : s.io ≠ .none → s.st = .subOpen ∨ s.st = .inOpen
  sub : s.st = .subOpen → (s.io = .opening ∨ s.io = .none) ∧ n.dones = [] ∧ s.err = 0
  inO : s.st = .inOpen → (s.io = .opened ∨ s.io = .closing ∨ s.io = .none) ∧ n.dones = [] ∧ s.err = 0
  op : s.st = .open → s.err = 0 ∧ n.dones = [0]
  fl : s.st = .openFail → s.err ≠ 0 ∧ n.dones = [s.err]
  cl : s.st = .closed → n.dones.length ≤ 1 ∧ s.err = 0
  mem : s.made = s.freed + (if s.io = .none then 0 else 1)
  cap : s.s2g.length ≤ 1024 ∧ s.g2s.length ≤ 1024

theorem handleErr_inv {s s' : S} {n : N} {err : Nat} {f : Fin} {o : Out} (hi : Inv s n) (he : err ≠ 0) (h : s.handleErr err f = some (s', o))
    {n' : N} (hd : n'.dones = n.dones ++ o.done.toList) : Inv s' n' := by
  obtain ⟨hio, h⟩ := handleErr_cases he h
  rcases h with ⟨h1, h2, h3, rfl, rfl⟩ | ⟨e, he', rfl, rfl⟩
  · have := hi.inO h1
    have hm := hi.mem
    rw [if_neg hio] at hm
    constructor <;> simp_all [hi.cap]
  · have hdn : n.dones = [] := by
      rcases hi.io hio with h | h
      · exact (hi.sub h).2.1
      · exact (hi.inO h).2.1
    have hm := hi.mem
    rw [if_neg hio] at hm
    have := hi.cap
    constructor <;> simp_all

theorem dones_note (s : S) (o : Out) (n : N) (ev : Ev) (h : ∀ x, ev = x → x ≠ .setup) : (n.note s o ev).dones = n.dones ++ o.done.toList := by
  unfold N.note
  cases ev <;> cases ho : o.done <;> simp_all

/-- Steps without an error keep the invariant if their parts do. -/
theorem step_inv {s s' : S} {n : N} {ev : Ev} {o : Out} (hi : Inv s n) (hp : Ok s n ev) (h : s.step ev = some (s', o)) :
    Inv s' (n.note s o ev) := by
  obtain ⟨h1, h2, h3, h4, h5, h6, h7, h8⟩ := hi
  cases ev with
  | setup =>
    simp only [S.step, S.setup, Option.some.injEq, Prod.mk.injEq] at h
    obtain ⟨rfl, rfl⟩ := h
    simp only [Ok] at hp
    constructor <;> grind [N.note]
  | cleanup =>
    simp only [S.step, S.cleanup, Option.some.injEq, Prod.mk.injEq] at h
    obtain ⟨rfl, rfl⟩ := h
    simp only [Ok] at hp
    constructor <;> grind [N.note]
  | tryConnect c oe =>
    simp only [S.step, S.tryConnect] at h
    simp only [Ok] at hp
    constructor <;> grind [N.note]
  | openDone er f =>
    simp only [S.step, S.openDone] at h
    by_cases he : s.io = .opening ∧ s.locked = false ∧ er ≠ 0
    · rw [if_neg (by simp [he.1]), if_neg (by simp [he.2.1]), if_pos he.2.2] at h
      exact handleErr_inv ⟨h1, h2, h3, h4, h5, h6, h7, h8⟩ he.2.2 h (dones_note _ _ _ _ (by intro x hx; subst hx; simp))
    constructor <;> grind [N.note]
  | read er d f =>
    simp only [S.step, S.read] at h
    by_cases he : ¬(s.st ≠ .inOpen ∨ s.io = .none) ∧ s.locked = false ∧ er ≠ 0
    · rw [if_neg he.1, if_neg (by simp [he.2.1]), if_pos he.2.2] at h
      exact handleErr_inv ⟨h1, h2, h3, h4, h5, h6, h7, h8⟩ he.2.2 h (dones_note _ _ _ _ (by intro x hx; subst hx; simp))
    have hcap : (d.take 1024).length ≤ 1024 := by rw [List.length_take]; omega
    constructor <;> grind [N.note]
  | writeReady er k f =>
    simp only [S.step, S.writeReady] at h
    by_cases he : ¬(s.st ≠ .inOpen ∨ s.io = .none) ∧ s.locked = false ∧ ¬s.g2s.length = 0 ∧ er ≠ 0
    · rw [if_neg he.1, if_neg (by simp [he.2.1]), if_neg he.2.2.1, if_pos he.2.2.2] at h
      exact handleErr_inv ⟨h1, h2, h3, h4, h5, h6, h7, h8⟩ he.2.2.2 h (dones_note _ _ _ _ (by intro x hx; subst hx; simp))
    have hdr : (s.g2s.drop k).length ≤ 1024 := by rw [List.length_drop]; omega
    split at h
    · simp only [Option.some.injEq, Prod.mk.injEq] at h
      obtain ⟨rfl, rfl⟩ := h
      exact ⟨h1, h2, h3, h4, h5, h6, h7, h8⟩
    split at h
    · simp at h
    split at h
    · simp only [Option.some.injEq, Prod.mk.injEq] at h
      obtain ⟨rfl, rfl⟩ := h
      exact ⟨h1, h2, h3, h4, h5, h6, h7, h8⟩
    rw [if_neg (by grind)] at h
    split at h
    · simp only [Option.some.injEq, Prod.mk.injEq] at h
      obtain ⟨rfl, rfl⟩ := h
      exact ⟨h1, h2, h3, h4, h5, h6, h7, ⟨h8.1, by simp⟩⟩
    · simp only [Option.some.injEq, Prod.mk.injEq] at h
      obtain ⟨rfl, rfl⟩ := h
      exact ⟨h1, h2, h3, h4, h5, h6, h7, ⟨h8.1, hdr⟩⟩
  | closeDone f =>
    simp only [S.step, S.closeDone, S.finish] at h
    generalize (if s.err = 0 then (if f.ctl = 0 then (if f.code ≠ 0 then localClosed else 0) else if f.ctl = notFound then 0 else f.ctl)
      else s.err) = e at h
    split at h
    · simp only [Option.some.injEq, Prod.mk.injEq] at h
      obtain ⟨rfl, rfl⟩ := h
      exact ⟨h1, h2, h3, h4, h5, h6, h7, h8⟩
    split at h
    · simp at h
    simp only [Option.some.injEq, Prod.mk.injEq] at h
    obtain ⟨rfl, rfl⟩ := h
    have hd : n.dones = [] := by grind
    by_cases he : e = 0 <;> constructor <;> simp_all [N.note]
  | tryDisconnect =>
    simp only [S.step, S.tryDisconnect] at h
    simp only [Ok] at hp
    constructor <;> grind [N.note]
  | ulBegin =>
    simp only [S.step, S.ulBegin] at h
    simp only [Ok] at hp
    constructor <;> grind [N.note]
  | ulEnd er k f =>
    simp only [S.step, S.ulEnd] at h
    cases hu : s.inUl with
    | none =>
      simp only [hu] at h
      constructor <;> grind [N.note]
    | some w =>
      simp only [hu] at h
      by_cases he : s.locked = false ∧ er ≠ 0
      · rw [if_neg (by simp [he.1]), if_pos he.2] at h
        refine handleErr_inv (s := { s with inUl := none }) (n := n) ⟨h1, h2, h3, h4, h5, h6, h7, h8⟩ he.2 h (dones_note _ _ _ _ (by intro x hx; subst hx; simp))
      constructor <;> grind [N.note]
  | llWrite d =>
    simp only [S.step, S.llWrite] at h
    simp only [Ok] at hp
    have hcap : (d.take 1024).length ≤ 1024 := by rw [List.length_take]; omega
    constructor <;> grind [N.note]

theorem run_inv (evs : List Ev) : ∀ (s : S) (n : N), Inv s n → Polite Ok s n evs → ∀ s' n', run s n evs = some (s', n') → Inv s' n' := by
  induction evs with
  | nil =>
    intro s n hi _ s' n' h
    simp only [run, Option.some.injEq, Prod.mk.injEq] at h
    obtain ⟨rfl, rfl⟩ := h
    exact hi
  | cons ev evs ih =>
    intro s n hi hp s' n' h
    unfold run at h
    cases hs : s.step ev with
    | none => rw [hs] at h; simp at h
    | some r =>
      obtain ⟨s1, o⟩ := r
      rw [hs] at h
      exact ih s1 _ (step_inv hi hp.1 hs) (hp.2 s1 o hs) s' n' h

theorem inv_start : Inv {} {} := by constructor <;> simp

/-! ## The report (C201) -/

/-- **C201, one report.**  In each session the end of the script is reported at most once; the filter is open if and only if success was
reported, and failed if and only if an error was, which is the one `check_open_done` gives. -/
theorem C201_once (evs : List Ev) (hp : Polite Ok {} {} evs) {s : S} {n : N} (h : run {} {} evs = some (s, n)) :
    n.dones.length ≤ 1 ∧ (s.st = .open → n.dones = [0] ∧ s.err = 0) ∧ (s.st = .openFail → n.dones = [s.err] ∧ s.err ≠ 0) ∧
    ((s.st = .subOpen ∨ s.st = .inOpen) → n.dones = []) := by
  have hi := run_inv evs _ _ inv_start hp _ _ h
  refine ⟨?_, fun h => ⟨(hi.op h).2, (hi.op h).1⟩, fun h => ⟨(hi.fl h).2, (hi.fl h).1⟩, fun h => ?_⟩
  · cases hs : s.st with
    | closed => exact (hi.cl hs).1
    | subOpen => rw [(hi.sub hs).2.1]; simp
    | inOpen => rw [(hi.inO hs).2.1]; simp
    | «open» => rw [(hi.op hs).2]; simp
    | openFail => rw [(hi.fl hs).2]; simp
  · rcases h with h | h
    · exact (hi.sub h).2.1
    · exact (hi.inO h).2.1

/-- **C201, success.**  Success is reported only by the end of a close, and only if the script was no program or ended with 0. -/
theorem C201_success {s s' : S} {ev : Ev} {o : Out} (h : s.step ev = some (s', o)) (hd : o.done = some 0) :
    ∃ f, ev = .closeDone f ∧ s.io = .closing ∧ s.err = 0 ∧ ((f.ctl = 0 ∧ f.code = 0) ∨ f.ctl = notFound) := by
  have hh : ∀ (q q' : S) (er : Nat) (f : Fin), er ≠ 0 → q.handleErr er f = some (q', o) → False := by
    intro q q' er f he hq
    rcases (handleErr_cases he hq).2 with ⟨_, _, _, _, rfl⟩ | ⟨e, he', _, rfl⟩
    · simp at hd
    · simp only [Option.some.injEq] at hd
      exact he' hd
  cases ev with
  | setup => simp [S.step] at h; rw [← h.2] at hd; simp at hd
  | cleanup => simp [S.step] at h; rw [← h.2] at hd; simp at hd
  | tryConnect c oe => simp only [S.step, S.tryConnect] at h; grind
  | openDone er f => simp only [S.step, S.openDone] at h; grind
  | read er d f => simp only [S.step, S.read] at h; grind
  | writeReady er k f => simp only [S.step, S.writeReady] at h; grind
  | tryDisconnect => simp only [S.step, S.tryDisconnect] at h; grind
  | ulBegin => simp only [S.step, S.ulBegin] at h; grind
  | ulEnd er k f =>
    simp only [S.step, S.ulEnd] at h
    split at h
    · grind
    · by_cases he : s.locked = false ∧ er ≠ 0
      · rw [if_neg (by simp [he.1]), if_pos he.2] at h
        exact (hh _ _ _ _ he.2 h).elim
      · grind
  | llWrite d => simp only [S.step, S.llWrite] at h; grind
  | closeDone f =>
    simp only [S.step, S.closeDone, S.finish] at h
    refine ⟨f, rfl, ?_⟩
    split at h
    · simp only [Option.some.injEq, Prod.mk.injEq] at h
      rw [← h.2] at hd; simp at hd
    · rename_i hio
      split at h
      · simp at h
      · simp only [Option.some.injEq, Prod.mk.injEq] at h
        rw [← h.2] at hd
        simp only [Option.some.injEq] at hd
        refine ⟨by simpa using hio, ?_⟩
        by_cases he : s.err = 0
        · refine ⟨he, ?_⟩
          rw [if_pos he] at hd
          split at hd
          · split at hd
            · exact absurd hd (by decide)
            · rename_i h1 h2
              exact Or.inl ⟨h1, by simpa using h2⟩
          · split at hd
            · exact Or.inr ‹_›
            · exact absurd hd ‹_›
        · rw [if_neg he] at hd
          exact absurd hd he

/-- **C201, failure.**  A script that ended with another code is reported as `GE_LOCALCLOSED`, a failing control with its error. -/
theorem C201_failure (s : S) (f : Fin) (hio : s.io = .closing) (he : s.err = 0) :
    (f.ctl = 0 → f.code ≠ 0 → ∃ s', s.step (.closeDone f) = some (s', { done := some localClosed }) ∧ s'.st = .openFail) ∧
    (f.ctl ≠ 0 → f.ctl ≠ notFound → ∃ s', s.step (.closeDone f) = some (s', { done := some f.ctl }) ∧ s'.st = .openFail) := by
  constructor
  · intro h1 h2
    exact ⟨_, by simp [S.step, S.closeDone, S.finish, hio, he, h1, h2]; rfl, by simp [localClosed]⟩
  · intro h1 h2
    exact ⟨_, by simp [S.step, S.closeDone, S.finish, hio, he, h1, h2]; rfl, by simp⟩

/-- **C201.**  A failure is final: until the filter is set up anew, a further try to connect starts no script and reports nothing, nor does one after
the success. -/
theorem C201_final (s : S) (c oe : Nat) (hs : s.st = .openFail ∨ s.st = .open) (hl : s.locked = false) :
    s.step (.tryConnect c oe) = some (s, {}) := by
  rcases hs with hs | hs <;> simp [S.step, S.tryConnect, hs, hl]

/-- **C200.**  What the script's gensio says it took, and only that, is gone from the buffer for it. -/
theorem C200_taken (s : S) (n : Nat) (f : Fin) (hs : s.st = .inOpen) (hio : s.io ≠ .none) (hl : s.locked = false) (hn : n ≤ s.g2s.length) :
    ∃ s', s.step (.writeReady 0 n f) = some (s', { count := n }) ∧ s'.g2s = s.g2s.drop n ∧ s'.s2g = s.s2g := by
  by_cases h0 : s.g2s.length = 0
  · have hn0 : n = 0 := by omega
    subst hn0
    exact ⟨{ s with wEn := false }, by simp [S.step, S.writeReady, hs, hio, hl, h0], by simp, rfl⟩
  · by_cases hge : n ≥ s.g2s.length
    · have he : n = s.g2s.length := by omega
      refine ⟨{ s with g2s := [], wEn := false }, ?_, ?_, rfl⟩
      · simp only [S.step, S.writeReady]
        rw [if_neg (by simp [hs, hio]), if_neg (by simp [hl]), if_neg h0, if_neg (by simp), if_pos hge, he]
      · simp [he]
    · refine ⟨{ s with g2s := s.g2s.drop n }, ?_, rfl, rfl⟩
      simp only [S.step, S.writeReady]
      rw [if_neg (by simp [hs, hio]), if_neg (by simp [hl]), if_neg h0, if_neg (by simp), if_neg hge]

/-! ## The lock (C199) -/

/-- **C199.**  Each step gives the lock back, except a write of the base to a filter that is closed or failed; and it is given back twice only
when the open fails without the close of the script. -/
theorem C199_lock_partial {s s' : S} {ev : Ev} {o : Out} (h : s.step ev = some (s', o)) (hl : s.locked = false) :
    (s'.locked = true → ev = .ulBegin ∧ (s.st = .closed ∨ s.st = .openFail)) ∧
    (s'.bad = true → s.bad = true ∨ ((∃ e, e ≠ 0 ∧ o.done = some e) ∧ ∀ f, ev ≠ .closeDone f)) := by
  have hh : ∀ (q : S) (er : Nat) (f : Fin), er ≠ 0 → q.handleErr er f = some (s', o) → q.locked = false →
      s'.locked = false ∧ (s'.bad = true → q.bad = true ∨ ∃ e, e ≠ 0 ∧ o.done = some e) := by
    intro q er f he hq hql
    rcases (handleErr_cases he hq).2 with ⟨_, _, _, rfl, rfl⟩ | ⟨e, he', rfl, rfl⟩
    · exact ⟨hql, fun h => Or.inl h⟩
    · exact ⟨hql, fun _ => Or.inr ⟨e, he', rfl⟩⟩
  cases ev with
  | setup => simp [S.step, S.setup] at h; grind
  | cleanup => simp [S.step, S.cleanup] at h; grind
  | tryConnect c oe => simp only [S.step, S.tryConnect] at h; grind
  | openDone er f => simp only [S.step, S.openDone] at h; grind
  | read er d f => simp only [S.step, S.read] at h; grind
  | writeReady er k f => simp only [S.step, S.writeReady] at h; grind
  | tryDisconnect => simp only [S.step, S.tryDisconnect] at h; grind
  | ulBegin =>
    simp only [S.step, S.ulBegin] at h
    cases hst : s.st <;> simp only [hst] at h <;> grind
  | ulEnd er k f =>
    simp only [S.step, S.ulEnd] at h
    split at h
    · grind
    · by_cases he : er ≠ 0
      · rw [if_neg (by simp [hl]), if_pos he] at h
        have := hh _ _ _ he h hl
        grind
      · grind
  | llWrite d => simp only [S.step, S.llWrite] at h; grind
  | closeDone f => simp only [S.step, S.closeDone, S.finish] at h; grind

/-- **C199, unlocked twice.**  If the script's gensio can not be opened, the lock is given back twice. -/
theorem C199_unlock_violated (s : S) (err : Nat) (f : Fin) (he : err ≠ 0) (hs : s.st = .subOpen) (hio : s.io = .opening) (hl : s.locked = false) :
    ∃ s', s.step (.openDone err f) = some (s', { done := some err }) ∧ s'.bad = true := by
  refine ⟨{ s with err := err, rEn := false, wEn := false, st := .openFail, io := .none, freed := s.freed + 1, bad := true }, ?_, rfl⟩
  simp [S.step, S.openDone, S.handleErr, S.fail, S.finish, hio, hl, he, hs]

/-- **C199, never unlocked.**  If the base writes what it found pending and the script failed in between, the lock is kept, and each later call of
the filter that takes it waits for ever. -/
theorem C199_stuck_violated (s : S) (hs : s.st = .openFail) (hl : s.locked = false) :
    ∃ s', s.step .ulBegin = some (s', {}) ∧ s'.locked = true ∧ s'.step .tryDisconnect = none ∧ s'.step (.tryConnect 0 0) = none ∧
      s'.step .ulBegin = none ∧ ∀ d, s'.step (.llWrite d) = none := by
  refine ⟨{ s with locked := true }, by simp [S.step, S.ulBegin, hs, hl], rfl, ?_, ?_, ?_, ?_⟩
  · simp [S.step, S.tryDisconnect]
  · simp [S.step, S.tryConnect]
  · simp [S.step, S.ulBegin, hs]
  · intro d; simp [S.step, S.llWrite, hs]

/-- It happens: the script writes, the lower layer reads, the script's gensio fails, and the base goes on with its write. -/
example : (run {} {} [.setup, .tryConnect 0 0, .openDone 0 {}, .read 0 [65] {}, .llWrite [66], .writeReady 25 0 {}, .ulBegin]).map
    (fun r => (r.1.locked, r.1.st)) = some (true, .openFail) := by decide +kernel

/-! ## The data (C200) -/

/-- Besides, the reads of the script are not longer than the buffer. -/
def Small (s : S) (n : N) (ev : Ev) : Prop := Ok s n ev ∧ ∀ e d f, ev = .read e d f → d.length ≤ 1024

/-- The streams: what was taken is what was given and what is kept. -/
structure Flow (s : S) (n : N) : Prop where
  s2g : n.toLower ++ s.s2g = n.fromScript
  g2s : n.toScript ++ s.g2s = n.fromLower
  ul : ∀ o, s.inUl = some o → o = s.s2g ∧ o ≠ []

theorem handleErr_same {s s' : S} {err : Nat} {f : Fin} {o : Out} (he : err ≠ 0) (h : s.handleErr err f = some (s', o)) :
    s'.s2g = s.s2g ∧ s'.g2s = s.g2s ∧ s'.inUl = s.inUl ∧ o.count = 0 := by
  rcases (handleErr_cases he h).2 with ⟨_, _, _, rfl, rfl⟩ | ⟨e, _, rfl, rfl⟩ <;> exact ⟨rfl, rfl, rfl, rfl⟩

theorem note_streams (s : S) (o : Out) (n : N) (ev : Ev) (hs : ev ≠ .setup) :
    (n.note s o ev).fromScript = n.fromScript ++ (match ev with | .read _ d _ => d.take o.count | _ => []) ∧
    (n.note s o ev).toLower = n.toLower ++ (match ev with | .ulEnd _ _ _ => (s.inUl.getD []).take o.count | _ => []) ∧
    (n.note s o ev).fromLower = n.fromLower ++ (match ev with | .llWrite d => d.take o.count | _ => []) ∧
    (n.note s o ev).toScript = n.toScript ++ (match ev with | .writeReady _ _ _ => s.g2s.take o.count | _ => []) := by
  unfold N.note
  cases ev <;> first | exact absurd rfl hs | (cases o.done <;> simp)

theorem step_flow {s s' : S} {n : N} {ev : Ev} {o : Out} (hf : Flow s n) (hp : Small s n ev) (h : s.step ev = some (s', o)) :
    Flow s' (n.note s o ev) := by
  obtain ⟨f1, f2, f3⟩ := hf
  obtain ⟨hp, hr⟩ := hp
  by_cases hset : ev = .setup
  · subst hset
    simp only [S.step, S.setup, Option.some.injEq, Prod.mk.injEq] at h
    obtain ⟨rfl, rfl⟩ := h
    simp only [Ok] at hp
    constructor <;> simp [N.note, hp.2]
  obtain ⟨n1, n2, n3, n4⟩ := note_streams s o n ev hset
  have hsame : s'.s2g = s.s2g → s'.g2s = s.g2s → (∀ w, s'.inUl = some w → w = s.s2g ∧ w ≠ []) → o.count = 0 → Flow s' (n.note s o ev) := by
    intro a b c d
    constructor
    · rw [n2, n1, a, d]; cases ev <;> simpa using f1
    · rw [n4, n3, b, d]; cases ev <;> simpa using f2
    · rw [a]; exact c
  cases ev with
  | setup => exact absurd rfl hset
  | cleanup =>
    simp only [S.step, S.cleanup] at h
    apply hsame <;> grind
  | tryConnect c oe =>
    simp only [S.step, S.tryConnect] at h
    apply hsame <;> grind
  | openDone er f =>
    simp only [S.step, S.openDone] at h
    apply hsame <;> grind [handleErr_same]
  | read er d f =>
    have hd := hr er d f rfl
    simp only [S.step, S.read] at h
    by_cases hc : o.count = 0
    · apply hsame <;> grind [handleErr_same]
    · have hs2 : s.s2g = [] ∧ s'.s2g = d ∧ s'.g2s = s.g2s ∧ s'.inUl = s.inUl ∧ o.count = d.length := by
        have := List.take_of_length_le hd
        split at h
        · grind
        split at h
        · grind
        split at h
        · have := handleErr_same ‹_› h; grind
        split at h
        · grind
        split at h
        · grind
        · rename_i h0 
          simp only [Option.some.injEq, Prod.mk.injEq] at h
          obtain ⟨rfl, rfl⟩ := h
          refine ⟨List.eq_nil_of_length_eq_zero (by omega), this, rfl, rfl, rfl⟩
      obtain ⟨a, b, c, e, g⟩ := hs2
      constructor
      · rw [n2, n1, b, g]; simp only [List.take_length, List.append_nil]; rw [← f1, a]; simp
      · rw [n4, n3, c]; simpa using f2
      · intro w hw
        rw [e] at hw
        exact absurd a (by have := f3 w hw; rw [← this.1]; exact this.2)
  | writeReady er k f =>
    simp only [S.step, S.writeReady] at h
    by_cases hc : s'.g2s = s.g2s ∧ o.count = 0
    · apply hsame <;> grind [handleErr_same]
    · have hs2 : s'.s2g = s.s2g ∧ s'.inUl = s.inUl ∧ s.g2s = s.g2s.take o.count ++ s'.g2s := by
        split at h
        · grind
        split at h
        · grind
        split at h
        · grind
        split at h
        · have := handleErr_same ‹_› h; grind
        split at h
        · simp only [Option.some.injEq, Prod.mk.injEq] at h
          obtain ⟨rfl, rfl⟩ := h
          simp
        · simp only [Option.some.injEq, Prod.mk.injEq] at h
          obtain ⟨rfl, rfl⟩ := h
          simp
      obtain ⟨a, b, c⟩ := hs2
      constructor
      · rw [n2, n1, a]; simpa using f1
      · rw [n4, n3]; simp only [List.append_nil]; rw [List.append_assoc, ← c]; exact f2
      · rw [a, b]; exact f3
  | tryDisconnect =>
    simp only [S.step, S.tryDisconnect] at h
    apply hsame <;> grind
  | ulBegin =>
    simp only [S.step, S.ulBegin] at h
    apply hsame <;> grind
  | ulEnd er k f =>
    simp only [S.step, S.ulEnd] at h
    split at h
    · simp only [Option.some.injEq, Prod.mk.injEq] at h
      obtain ⟨rfl, rfl⟩ := h
      exact hsame rfl rfl f3 rfl
    rename_i w hw
    obtain ⟨hw1, hw2⟩ := f3 w hw
    split at h
    · simp at h
    split at h
    · have := handleErr_same ‹_› h
      apply hsame <;> grind
    have hs2 : s'.g2s = s.g2s ∧ s'.inUl = none ∧ s.s2g = w.take o.count ++ s'.s2g := by
      split at h
      · split at h
        · simp at h
        · simp only [Option.some.injEq, Prod.mk.injEq] at h
          obtain ⟨rfl, rfl⟩ := h
          simp [hw1]
      · simp only [Option.some.injEq, Prod.mk.injEq] at h
        obtain ⟨rfl, rfl⟩ := h
        simp [hw1]
    obtain ⟨a, b, c⟩ := hs2
    constructor
    · rw [n2, n1, hw]; simp only [List.append_nil, Option.getD_some]; rw [List.append_assoc, ← c]; exact f1
    · rw [n4, n3, a]; simpa using f2
    · rw [b]; simp
  | llWrite d =>
    simp only [S.step, S.llWrite] at h
    by_cases hc : o.count = 0 ∧ s'.g2s = s.g2s
    · apply hsame <;> grind
    · have hs2 : s'.s2g = s.s2g ∧ s'.inUl = s.inUl ∧ s.g2s = [] ∧ s'.g2s = d.take o.count := by
        split at h
        · grind
        · split at h
          · simp at h
          split at h
          · rename_i h0
            split at h
            · simp at h
            · simp only [Option.some.injEq, Prod.mk.injEq] at h
              obtain ⟨rfl, rfl⟩ := h
              refine ⟨rfl, rfl, List.eq_nil_of_length_eq_zero h0.1, ?_⟩
              simp only
              rw [List.take_eq_take_iff]
              omega
          · grind
        · grind
      obtain ⟨a, b, c, e⟩ := hs2
      constructor
      · rw [n2, n1, a]; simpa using f1
      · rw [n4, n3, e]; simp only [List.append_nil]; rw [← f2, c]; simp
      · rw [a, b]; exact f3
  | closeDone f =>
    simp only [S.step, S.closeDone, S.finish] at h
    apply hsame <;> grind

/-- **C200.**  If no read of the script is longer than the buffer, in each session the bytes given to the lower layer and those kept for it are the
bytes taken from the script, in order, and the same in the other direction; no more than 1024 are kept. -/
theorem C200_order_partial (evs : List Ev) (hp : Polite Small {} {} evs) {s : S} {n : N} (h : run {} {} evs = some (s, n)) :
    n.toLower ++ s.s2g = n.fromScript ∧ n.toScript ++ s.g2s = n.fromLower ∧ s.s2g.length ≤ 1024 ∧ s.g2s.length ≤ 1024 := by
  have : ∀ (evs : List Ev) (s : S) (n : N), Inv s n → Flow s n → Polite Small s n evs → ∀ s' n', run s n evs = some (s', n') → Inv s' n' ∧ Flow s' n' := by
    intro evs
    induction evs with
    | nil =>
      intro s n hi hf _ s' n' h
      simp only [run, Option.some.injEq, Prod.mk.injEq] at h
      obtain ⟨rfl, rfl⟩ := h
      exact ⟨hi, hf⟩
    | cons ev evs ih =>
      intro s n hi hf hp s' n' h
      unfold run at h
      cases hs : s.step ev with
      | none => rw [hs] at h; simp at h
      | some r =>
        obtain ⟨s1, o⟩ := r
        rw [hs] at h
        exact ih s1 _ (step_inv hi hp.1.1 hs) (step_flow hf hp.1 hs) (hp.2 s1 o hs) s' n' h
  obtain ⟨hi, hf⟩ := this evs {} {} inv_start ⟨rfl, rfl, by simp⟩ hp s n h
  exact ⟨hf.s2g, hf.g2s, hi.cap.1, hi.cap.2⟩

/-- **C200, cut.**  A longer read of the script is reported as taken whole, and what is behind the first 1024 bytes is lost. -/
theorem C200_cut_violated (s : S) (d : List UInt8) (f : Fin) (hs : s.st = .inOpen) (hio : s.io ≠ .none) (hl : s.locked = false) (h0 : s.s2g = [])
    (hd : 1024 < d.length) : ∃ s', s.step (.read 0 d f) = some (s', { count := d.length }) ∧ s'.s2g = d.take 1024 ∧ s'.s2g ≠ d := by
  refine ⟨{ s with s2g := d.take 1024, rEn := false }, ?_, rfl, ?_⟩
  · simp only [S.step, S.read]
    rw [if_neg (by simp [hs, hio]), if_neg (by simp [hl]), if_neg (by simp), if_neg (by omega), if_neg (by simp [h0])]
  · intro h
    have := congrArg List.length h
    rw [List.length_take] at this
    omega

theorem step_open_same {s s' : S} {ev : Ev} {o : Out} (hs : s.st = .open ∨ s.st = .closed) (hio : s.io = .none) (hu : s.inUl = none)
    (hc : ∀ c oe, ev ≠ .tryConnect c oe) (hset : ev ≠ .setup) (h : s.step ev = some (s', o)) :
    (s'.st = .open ∨ s'.st = .closed) ∧ s'.io = .none ∧ s'.inUl = none ∧ s'.s2g = s.s2g ∧ s'.g2s = s.g2s ∧ o = {} := by
  cases ev with
  | setup => exact absurd rfl hset
  | tryConnect c oe => exact absurd rfl (hc c oe)
  | cleanup => simp only [S.step, S.cleanup] at h; grind
  | openDone er f => simp only [S.step, S.openDone] at h; grind
  | read er d f => simp only [S.step, S.read] at h; grind
  | writeReady er k f => simp only [S.step, S.writeReady] at h; grind
  | tryDisconnect => simp only [S.step, S.tryDisconnect] at h; grind
  | ulBegin => simp only [S.step, S.ulBegin] at h; grind
  | ulEnd er k f => simp only [S.step, S.ulEnd] at h; grind
  | llWrite d => simp only [S.step, S.llWrite] at h; grind
  | closeDone f => simp only [S.step, S.closeDone, S.finish] at h; grind

/-- **C200, lost at the end.**  Once the filter is open, what the buffers still hold is in neither direction given to anybody, whatever follows
in the session: output of the script that was not sent, and bytes of the lower layer that the script did not read and the user should get. -/
theorem C200_lost_violated (evs : List Ev) : ∀ (s : S) (n : N), (s.st = .open ∨ s.st = .closed) → s.io = .none → s.inUl = none →
    (∀ ev ∈ evs, ev ≠ .setup ∧ ∀ c oe, ev ≠ .tryConnect c oe) → ∀ s' n', run s n evs = some (s', n') →
    n'.toLower = n.toLower ∧ n'.toScript = n.toScript ∧ s'.s2g = s.s2g ∧ s'.g2s = s.g2s := by
  induction evs with
  | nil =>
    intro s n _ _ _ _ s' n' h
    simp only [run, Option.some.injEq, Prod.mk.injEq] at h
    obtain ⟨rfl, rfl⟩ := h
    exact ⟨rfl, rfl, rfl, rfl⟩
  | cons ev evs ih =>
    intro s n h1 h2 h3 h4 s' n' h
    unfold run at h
    cases hs : s.step ev with
    | none => rw [hs] at h; simp at h
    | some r =>
      obtain ⟨s1, o⟩ := r
      rw [hs] at h
      have h5 := h4 ev (by simp)
      obtain ⟨a, b, c, d, e, g⟩ := step_open_same h1 h2 h3 h5.2 h5.1 hs
      obtain ⟨k1, k2, k3, k4⟩ := ih s1 _ a b c (fun x hx => h4 x (by simp [hx])) s' n' h
      obtain ⟨n1, n2, n3, n4⟩ := note_streams s o n ev h5.1
      subst g
      refine ⟨?_, ?_, by rw [k3, d], by rw [k4, e]⟩
      · rw [k1, n2]; cases ev <;> simp
      · rw [k2, n4]; cases ev <;> simp

/-- It happens: the script gets "A", answers "B" and ends with 0; "B" is not yet sent, "C" is not yet read, and both are lost. -/
example : (run {} {} [.setup, .tryConnect 0 0, .openDone 0 {}, .llWrite [65], .writeReady 0 1 {}, .read 0 [66] {}, .llWrite [67],
    .writeReady 26 0 {}, .closeDone {}]).map (fun r => (r.1.st, r.1.s2g, r.1.g2s, r.2)) =
    some (.open, [66], [67], { fromScript := [66], fromLower := [65, 67], toScript := [65], dones := [0] }) := by decide +kernel

/-! ## Memory (C202) -/

/-- Besides, no write of the base is under way when the script ends, and none comes for a filter that is closed or failed. -/
def NoRace (s : S) (n : N) (ev : Ev) : Prop :=
  Ok s n ev ∧ (∀ e k f, ev = .ulEnd e k f → s.io ≠ .none ∨ s.inUl = none) ∧ (ev = .ulBegin → s.st = .open ∨ s.st = .inOpen)

/-- **C202.**  Without such a race nothing wrong is used, in any number of sessions, and each gensio of a script is freed once. -/
theorem C202_memory_partial (evs : List Ev) (hp : Polite NoRace {} {} evs) :
    ∃ s n, run {} {} evs = some (s, n) ∧ s.made = s.freed + (if s.io = .none then 0 else 1) := by
  have : ∀ (evs : List Ev) (s : S) (n : N), Inv s n → s.locked = false → Polite NoRace s n evs → ∃ s' n', run s n evs = some (s', n') ∧ Inv s' n' := by
    intro evs
    induction evs with
    | nil => intro s n hi _ _; exact ⟨s, n, rfl, hi⟩
    | cons ev evs ih =>
      intro s n hi hl hp
      obtain ⟨⟨hok, hu, hb⟩, hp2⟩ := hp
      have hs : ∃ r, s.step ev = some r := by
        cases ev with
        | setup => exact ⟨_, rfl⟩
        | cleanup => exact ⟨_, rfl⟩
        | tryConnect c oe => 
          simp only [S.step, S.tryConnect, hl]
          cases s.st <;> simp only [Bool.false_eq_true, if_false] <;> first | exact ⟨_, rfl⟩ | skip
          split
          · exact ⟨_, rfl⟩
          · split <;> exact ⟨_, rfl⟩
        | openDone er f =>
          simp only [S.step, S.openDone, hl]
          by_cases h0 : s.io = .opening
          · rw [if_neg (by simp [h0]), if_neg (by simp)]
            split
            · exact handleErr_some (by simp [h0])
            · exact ⟨_, rfl⟩
          · rw [if_pos h0]; exact ⟨_, rfl⟩
        | read er d f =>
          simp only [S.step, S.read, hl]
          by_cases h0 : s.st ≠ .inOpen ∨ s.io = .none
          · rw [if_pos h0]; exact ⟨_, rfl⟩
          · rw [if_neg h0, if_neg (by simp)]
            split
            · exact handleErr_some (by grind)
            · split
              · exact ⟨_, rfl⟩
              · split <;> exact ⟨_, rfl⟩
        | writeReady er k f =>
          simp only [S.step, S.writeReady, hl]
          by_cases h0 : s.st ≠ .inOpen ∨ s.io = .none
          · rw [if_pos h0]; exact ⟨_, rfl⟩
          · rw [if_neg h0, if_neg (by simp)]
            split
            · exact ⟨_, rfl⟩
            · split
              · exact handleErr_some (by grind)
              · split <;> exact ⟨_, rfl⟩
        | closeDone f =>
          simp only [S.step, S.closeDone, S.finish]
          by_cases h0 : s.io = .closing
          · simp [h0]
          · rw [if_pos h0]; exact ⟨_, rfl⟩
        | tryDisconnect => simp only [S.step, S.tryDisconnect, hl]; cases s.st <;> exact ⟨_, rfl⟩
        | ulBegin =>
          simp only [S.step, S.ulBegin, hl]
          rcases hb rfl with h | h <;> rw [h]
          · exact ⟨_, rfl⟩
          · simp only [Bool.false_eq_true, if_false]
            split <;> exact ⟨_, rfl⟩
        | ulEnd er k f =>
          simp only [S.step, S.ulEnd]
          cases hi : s.inUl with
          | none => exact ⟨_, rfl⟩
          | some w =>
            have hio : s.io ≠ .none := by
              rcases hu er k f rfl with h | h
              · exact h
              · rw [hi] at h; simp at h
            simp only [hl, Bool.false_eq_true, if_false, hio]
            split
            · exact handleErr_some (by exact hio)
            · split <;> exact ⟨_, rfl⟩
        | llWrite d =>
          simp only [S.step, S.llWrite, hl]
          simp only [Ok] at hok
          cases hs : s.st <;> simp only [Bool.false_eq_true, if_false]
          · exact ⟨_, rfl⟩
          · exact ⟨_, rfl⟩
          · rw [if_neg (hok hs)]
            split <;> exact ⟨_, rfl⟩
          · exact ⟨_, rfl⟩
          · exact ⟨_, rfl⟩
      obtain ⟨⟨s1, o⟩, hs⟩ := hs
      have hl1 : s1.locked = false := by
        cases h : s1.locked with
        | false => rfl
        | true =>
          obtain ⟨h1, h2⟩ := (C199_lock_partial hs hl).1 h
          rcases hb h1 with h3 | h3 <;> rw [h3] at h2 <;> simp at h2
      obtain ⟨s', n', e, g⟩ := ih s1 _ (step_inv hi hok hs) hl1 (hp2 s1 o hs)
      exact ⟨s', n', by unfold run; rw [hs]; exact e, g⟩
  obtain ⟨s, n, h, hi⟩ := this evs {} {} inv_start rfl hp
  exact ⟨s, n, h, hi.mem⟩

/-- **C202, a race.**  If the script ends while the lower layer takes its output, the filter enables the reads of a gensio that is gone. -/
theorem C202_null_violated (s : S) (o : List UInt8) (k : Nat) (f : Fin) (hu : s.inUl = some o) (hio : s.io = .none) (hl : s.locked = false)
    (hk : s.s2g.length ≤ k) : s.step (.ulEnd 0 k f) = none := by
  simp [S.step, S.ulEnd, hu, hl, hio, hk]

/-- It happens: the handler runs, the script's gensio says in a write that it has ended, is closed and freed, and the handler returns. -/
example : run {} {} [.setup, .tryConnect 0 0, .openDone 0 {}, .llWrite [65], .read 0 [66] {}, .ulBegin, .writeReady 26 0 {}, .closeDone {},
    .ulEnd 0 1 {}] = none := by decide +kernel

/-- Two sessions, the second with a script that fails. -/
example : (run {} {} [.setup, .tryConnect 0 0, .openDone 0 {}, .read 0 [66] {}, .ulBegin, .ulEnd 0 1 {}, .read 26 [] {}, .closeDone {},
    .tryDisconnect, .cleanup, .setup, .tryConnect 0 0, .openDone 0 {}, .read 26 [] {}, .closeDone { code := 3 }]).map (fun r => (r.1.st, r.1.made, r.1.freed, r.2.dones)) =
    some (.openFail, 2, 2, [35]) := by decide +kernel

end Gensio.Script
