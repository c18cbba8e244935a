import Verif.Lemmas.ConaccRun
import Verif.Lemmas.ConaccOnce

/-!
# C167–C171: the accepter that makes connections
-/
namespace Gensio.Conacc

/-- A connection is opened and handed to the user. -/
def conn (i : Nat) : List Op := [.opened i false, .openDone i true, .openDone i true, .openDone i true, .openDone i true]

/-- `q` of the state after a run. -/
def after (r : Bool) (ops : List Op) (q : Na → Bool) : Bool := match run (init r) ops with | some s => q s | none => false

/-- `careful` as a test. -/
def carefulB (s : Na) (o : Op) : Bool :=
  let stop := s.tm == .running && !s.defer && s.deferSw == 0
  let calmB := match s.cur with | some i => (s.conns i).pc == .idle | none => true
  match o with
  | .shutdown | .free => (s.st != .waiting || stop) && (s.st != .opening || calmB) && (s.deferSw == 0 || s.enDone == none)
  | .enable en _ _ => s.enDone != none || ((s.st != .inDisable || s.tm != .stopping) && (s.st != .waiting || en || stop) &&
      (s.st != .opening || en || calmB) && (s.st != .openDisable || !en))
  | .closeIo i _ _ => (s.conns i).st == .opened
  | .disableIo i _ => !(s.conns i).user
  | .control => s.sc == 0
  | _ => true

/-- A run in which the test holds at every step. -/
def check (s : Na) : List Op → Bool
  | [] => true
  | o :: os => carefulB s o && (match step s o with | some s' => check s' os | none => true)

theorem careful_of {s : Na} {o : Op} (h : carefulB s o = true) : careful s o := by
  have hc : (match s.cur with | some i => (s.conns i).pc == .idle | none => true) = true → calm s := by
    intro h i hi
    rw [hi] at h
    simpa using h
  cases o <;> simp only [careful, carefulB, Bool.and_eq_true, Bool.or_eq_true, bne_iff_ne, beq_iff_eq, ne_eq, Bool.not_eq_true'] at h ⊢ <;>
    (try trivial)
  case shutdown => exact ⟨fun e => ⟨(h.1.1.resolve_left (by simp [e])).1.1, (h.1.1.resolve_left (by simp [e])).1.2, (h.1.1.resolve_left (by simp [e])).2⟩,
      fun e => hc (h.1.2.resolve_left (by simp [e])), fun e => h.2.resolve_left (by omega)⟩
  case free => exact ⟨fun e => ⟨(h.1.1.resolve_left (by simp [e])).1.1, (h.1.1.resolve_left (by simp [e])).1.2, (h.1.1.resolve_left (by simp [e])).2⟩,
      fun e => hc (h.1.2.resolve_left (by simp [e])), fun e => h.2.resolve_left (by omega)⟩
  case enable en d ok =>
    intro hn
    obtain ⟨⟨⟨h1, h2⟩, h3⟩, h4⟩ := h.resolve_left (by simp [hn])
    refine ⟨fun e => h1.resolve_left (by simp [e]), fun e e' => ?_, fun e e' => ?_, fun e => h4.resolve_left (by simp [e])⟩
    · rcases h2 with (a | a) | a
      · exact absurd e a
      · simp [e'] at a
      · exact ⟨a.1.1, a.1.2, a.2⟩
    · rcases h3 with (a | a) | a
      · exact absurd e a
      · simp [e'] at a
      · exact hc a

theorem careful_check {s : Na} {ops : List Op} (h : check s ops = true) : Careful s ops := by
  induction ops generalizing s with
  | nil => trivial
  | cons o os ih =>
    simp only [check, Bool.and_eq_true] at h
    refine ⟨careful_of h.1, fun s' e => ih ?_⟩
    have := h.2
    rw [e] at this
    exact this

/-! ## C167: no assertion, no use of freed memory, no deadlock -/

/-- When the user is careful, no step of any run goes wrong.  Missing: what `careful` excludes, which goes wrong. -/
theorem C167_careful_partial (r : Bool) (ops : List Op) (h : Careful (init r) ops) : ∃ s, run (init r) ops = some s := by
  obtain ⟨s, _, e, _⟩ := run_good (init_inv r) h
  exact ⟨s, e⟩

/-- Connect, have the connection closed, connect again, shut down while that is opened, and free everything. -/
def wholeRun : List Op :=
  [.startup true] ++ conn 0 ++ [.closeIo 0 7 true, .closed 0, .closeEnd 0 true, .freeIo 0 true, .timer, .timeout true, .shutdown, .opened 1 true,
    .openDone 1 true, .closed 1, .shutClose, .report, .free, .release, .drop]

example : after true wholeRun (fun s => s.gone && s.log == [.newConn 0, .closed 7, .shutReq, .shutCb]) = true := by decide +kernel

example : Careful (init true) wholeRun := careful_check (by decide +kernel)

/-- A second close of a connection fails and gives back the reference of the accepter a second time. -/
theorem C167_double_close_violated :
    run (init false) ([.startup true] ++ conn 0 ++ [.shutdown, .deferred true, .drop, .report, .closeIo 0 1 true, .closed 0, .closeEnd 0 true,
      .closeIo 0 2 true, .startup true]) = none := by decide +kernel

/-- `gensio_disable` of a connection starts the next one twice; the second is found in a state where it must not be. -/
theorem C167_disable_connection_violated :
    run (init true) ([.startup true] ++ conn 0 ++ [.disableIo 0 true, .timer, .timeout true]) = none ∧
    run (init false) ([.startup true] ++ conn 0 ++ [.disableIo 0 true, .opened 1 false, .openDone 1 true, .openDone 1 true, .openDone 1 true]) = none := by
  decide +kernel

/-- An enable and then a shutdown while the timer for the retry runs: the deferred call finishes the shutdown before the timer
is stopped, and `retry_timer_done` fails its assertion. -/
theorem C167_enable_shutdown_violated :
    run (init true) [.startup false, .enable true (some 1) true, .shutdown, .deferred true, .deferredSw true, .timerDone true] = none := by
  decide +kernel

/-- A disable and then an enable, both without a callback, while a connection is opened. -/
theorem C167_disable_enable_violated :
    run (init true) [.startup true, .enable false none true, .opened 0 true, .openDone 0 true, .enable true none true, .closed 0, .shutClose] = none := by
  decide +kernel

/-- A shutdown while `conaccn_open_done` is under way, with and without an error. -/
theorem C167_shutdown_in_open_violated :
    run (init true) [.startup true, .opened 0 false, .openDone 0 true, .shutdown, .openDone 0 true, .openDone 0 true] = none ∧
    run (init true) [.startup true, .opened 0 true, .shutdown, .openDone 0 true, .openDone 0 true] = none := by decide +kernel

/-- A shutdown after the timer went off and before its handler has the lock. -/
theorem C167_shutdown_timer_violated :
    run (init true) [.startup false, .timer, .shutdown, .deferred true, .timeout true] = none := by decide +kernel

/-- Asking for an address while the connection that was given up is already freed and the accepter still points to it. -/
theorem C167_control_violated :
    run (init true) [.startup true, .enable false (some 1) true, .opened 0 true, .openDone 0 true, .closed 0, .control] = none := by decide +kernel

/-! ## C168: an enabled accepter keeps trying -/

/-- An accepter with a retry time that was started, not shut down, and enabled opens a connection, has one, waits for its timer,
or is about to start again.  The user is careful and does not enable it while it has a connection. -/
theorem C168_keeps_trying_partial (r : Bool) (ops : List Op) (s : Na) (hc : Careful (init r) ops) (hn : Always noReady (init r) ops)
    (he : run (init r) ops = some s) (hr : s.retry = true) (hb : s.base = .opened) (hen : s.enabled = true) :
    (s.st = .opening ∧ ∃ i, s.cur = some i ∧ ((s.conns i).opn = true ∨ (s.conns i).pc ≠ .idle)) ∨ (s.st = .ready ∧ ∃ i, s.cur = some i) ∨
    (s.st = .waiting ∧ (s.tm = .running ∨ s.timers = 1)) ∨ (s.st = .inDisableRestart ∧ (s.defer = true ∨ 0 < s.deferSw)) := by
  obtain ⟨p, hi⟩ := run_inv hc he
  have hk := run_keeps (init_inv r) (by intro _ h; cases h) hc hn he hr hb
  rw [hen] at hk
  have hbo := hi.base
  rw [hb] at hbo
  have hrt := hi.retry hr
  have hcomp := hi.comp
  have hcur := hi.cur
  cases hst : s.st <;> rw [hst] at hk hbo hrt hcomp <;> simp [baseOk] at hk hbo hrt
  · left
    refine ⟨rfl, ?_⟩
    cases p with
    | none => exact hcomp.elim
    | some ph =>
      obtain ⟨i, e1, _, e3⟩ := hcur
      refine ⟨i, e1, ?_⟩
      rw [e3]
      cases ph <;> simp [compat, Ph.conn] at hcomp ⊢
  · right; left
    refine ⟨rfl, ?_⟩
    cases p with
    | none => exact absurd rfl hcomp.2
    | some ph => obtain ⟨i, e1, _⟩ := hcur; exact ⟨i, e1⟩
  · right; right; left
    exact ⟨rfl, hi.waiting hst⟩
  · right; right; right
    refine ⟨rfl, ?_⟩
    rcases Inv.pending hi (by simp [hst]) with a | a | a | a
    · exact .inl a
    · exact .inr a
    · have := (hi.stopping a).1; simp [hst] at this
    · have := hi.fin; simp [hst] at this; omega

/-- One that waits opens a connection when its timer goes off. -/
theorem C168_tries_again_partial (r : Bool) (ops : List Op) (s : Na) (hc : Careful (init r) ops) (he : run (init r) ops = some s) (hw : s.st = .waiting) :
    ∃ ops' s', ops'.all isEnv = true ∧ run s ops' = some s' ∧ s'.st = .opening ∧ s'.cur = some s.n ∧ s'.n = s.n + 1 := by
  obtain ⟨p, hi⟩ := run_inv hc he
  have key : ∀ (s : Na) (p : Option Ph), Inv s p → s.st = .waiting → 0 < s.timers →
      ∃ s', step s (.timeout true) = some s' ∧ s'.st = .opening ∧ s'.cur = some s.n ∧ s'.n = s.n + 1 := by
    intro s p hi hw ht
    obtain ⟨s', p', e, _⟩ := timeout_step hi true
    refine ⟨s', e, ?_⟩
    have hg := hi.live (by simp [ht])
    have hp : p = none := by have := hi.comp; rw [hw] at this; exact this
    have hcur : s.cur = none := by have := hi.cur; rw [hp] at this; exact this
    simp only [step, show ¬ s.timers = 0 by omega, if_false] at e
    unfold timeout at e
    rw [if_neg (by simp [hg])] at e
    simp only [hw, start, hcur, Option.isSome_none, Bool.false_eq_true, if_false, if_true, Option.bind_some] at e
    unfold deref at e
    split at e
    · cases e
    · split at e <;> (cases e; exact ⟨rfl, rfl, rfl⟩)
  rcases hi.waiting hw with ht | ht
  · have e : step s .timer = some { s with tm := .idle, timers := s.timers + 1 } := by simp [step, ht]
    obtain ⟨t, p', e', hi'⟩ := timer_step hi
    rw [e] at e'; cases e'
    obtain ⟨s', e1, h⟩ := key _ _ hi' hw (Nat.succ_pos _)
    exact ⟨[.timer, .timeout true], s', rfl, by simp [run, e, e1], h⟩
  · obtain ⟨s', e1, h⟩ := key _ _ hi hw (by omega)
    exact ⟨[.timeout true], s', rfl, by simp [run, e1], h⟩

example : after true ([.startup true, .opened 0 true, .openDone 0 true, .openDone 0 true, .timer, .timeout true] ++ conn 1)
    (fun s => s.st == .ready && s.cur == some 1) = true := by decide +kernel

/-- Enabling an accepter that has a connection disables it: when the connection is closed, no other is opened. -/
theorem C168_enable_ready_violated :
    after true ([.startup true] ++ conn 0 ++ [.enable true (some 1) true, .deferred true, .deferredSw true, .closeIo 0 1 true, .closed 0, .closeEnd 0 true])
      (fun s => s.enabled && s.base == .opened && s.st == .disabled && s.cur == none && s.tm == .idle && !s.defer) = true := by decide +kernel

/-- An enable that fails leaves the accepter in the state of one that was shut down, while the upper half has it open: it can be
neither shut down nor started. -/
theorem C168_failed_enable_violated :
    after false [.startup true, .enable false (some 1) true, .opened 0 true, .openDone 0 true, .closed 0, .shutClose, .drop,
      .enable true (some 2) false, .deferred true, .shutdown, .startup true]
      (fun s => s.st == .shutdown && s.base == .opened && !s.log.contains .shutReq && s.cur == none) = true := by decide +kernel

/-! ## C169: what was asked for is reported once -/

/-- Every enable or disable that was accepted was reported once or is the one that is to be reported. -/
theorem C169_enable_partial (r : Bool) (ops : List Op) (s : Na) (hc : Careful (init r) ops) (he : run (init r) ops = some s) (id : Nat) :
    s.log.count (.enReq id) = s.log.count (.enCb id) + (if s.enDone = some id then 1 else 0) :=
  (run_book (init_inv r) ⟨by simp [init], by simp [init]⟩ hc he).en id

/-- The one that is to be reported has a call to come: the deferred one, that of the timer that is stopped, or that of the
connection that is given up.  The accepter is not freed before. -/
theorem C169_enable_pending_partial (r : Bool) (ops : List Op) (s : Na) (hc : Careful (init r) ops) (he : run (init r) ops = some s)
    (hn : s.enDone ≠ none) :
    s.accGone = false ∧ s.gone = false ∧ (s.defer = true ∨ s.tm = .stopping ∨ (∃ i, s.cur = some i ∧ (s.conns i).shut = true)) := by
  obtain ⟨p, hi⟩ := run_inv hc he
  have hacc : s.accGone = false := by
    by_cases ha : s.accGone = true
    · exact absurd (hi.acc ha).2.2.1 hn
    · simpa using ha
  refine ⟨hacc, hi.live (by simp [hacc]), ?_⟩
  have hcomp := hi.comp
  have hcur := hi.cur
  have hshut : ∀ (x : NSt), s.st = x → (x = .openDisable ∨ x = .openShutdown) → p ≠ none → ∃ i, s.cur = some i ∧ (s.conns i).shut = true := by
    intro x hx hxx hp
    cases p with
    | none => exact absurd rfl hp
    | some ph =>
      obtain ⟨i, e1, _, e3⟩ := hcur
      refine ⟨i, e1, ?_⟩
      rw [e3]
      rcases hxx with e | e <;> rw [hx, e] at hcomp <;> (cases ph <;> simp [compat, Ph.conn] at hcomp ⊢)
  rcases hi.enp hn with a | a | a | a
  · exact .inl a
  · exact .inr (.inl a)
  · refine .inr (.inr (hshut _ a (.inl rfl) ?_))
    intro hp; rw [a, hp] at hcomp; exact hcomp
  · refine .inr (.inr (hshut _ a (.inr rfl) ?_))
    intro hp
    have h1 := hi.osh a hp
    have := hi.fin
    rw [h1] at this
    simp at this
    exact hn this.1

/-- As long as the user did not free the accepter, every shutdown that was accepted was reported once or is under way. -/
theorem C169_shutdown_partial (r : Bool) (ops : List Op) (s : Na) (hc : Careful (init r) ops) (he : run (init r) ops = some s)
    (hf : s.freed = false) : s.log.count .shutReq = s.log.count .shutCb + (if s.base = .inShut then 1 else 0) :=
  (run_book (init_inv r) ⟨by simp [init], by simp [init]⟩ hc he).sh hf

/-- A shutdown that is under way can be brought to its report without the user. -/
theorem C169_shutdown_ends_partial (r : Bool) (ops : List Op) (s : Na) (hc : Careful (init r) ops) (he : run (init r) ops = some s)
    (hb : s.base = .inShut) :
    ∃ ops' s', ops'.all isEnv = true ∧ run s ops' = some s' ∧ s'.base = .closed ∧ (s'.freed = false → Ev.shutCb ∈ s'.log) := by
  obtain ⟨p, hi⟩ := run_inv hc he
  obtain ⟨ops', s', h1, h2, h3, h4⟩ := shut_ends hi hb
  have app : ∀ (a b : List Op) (x y z : Na), run x a = some y → run y b = some z → run x (a ++ b) = some z := by
    intro a
    induction a with
    | nil => intro b x y z e1 e2; cases e1; exact e2
    | cons o os ih =>
      intro b x y z e1 e2
      simp only [run, List.cons_append] at e1 ⊢
      cases hs : step x o with
      | none => rw [hs] at e1; cases e1
      | some w => rw [hs] at e1; exact ih b w y z e1 e2
  by_cases hf : s'.freed = true
  · refine ⟨ops' ++ [.report], { s' with rep := false, base := .closed }, by simp [h1, isEnv], app _ _ _ _ _ h2 (by simp [run, step, h3, hf]), rfl, ?_⟩
    intro h; have : s'.freed = false := h; simp [hf] at this
  · refine ⟨ops' ++ [.report], { (s'.say .shutCb) with rep := false, base := .closed }, by simp [h1, isEnv], app _ _ _ _ _ h2 (by simp [run, step, h3, hf]), rfl, ?_⟩
    intro _
    simp [Na.say]

example : after true [.startup true, .enable false (some 4) true, .shutdown, .opened 0 true, .openDone 0 true, .closed 0, .shutClose, .finEn, .report]
    (fun s => s.log == [.enReq 4, .shutReq, .enCb 4, .shutCb] && s.base == .closed) = true := by decide +kernel

/-! ## C170: one connection at a time -/

/-- The child of a connection is there and not closed. -/
def busy (c : Conn) : Bool := !c.gone && (c.opn || c.ch != .closed)

/-- Never are two child gensios opened, open or being closed. -/
theorem C170_one_partial (r : Bool) (ops : List Op) (s : Na) (hc : Careful (init r) ops) (he : run (init r) ops = some s) (i j : Nat)
    (h1 : busy (s.conns i) = true) (h2 : busy (s.conns j) = true) : i = j := by
  obtain ⟨p, hi⟩ := run_inv hc he
  have key : ∀ i, busy (s.conns i) = true → s.cur = some i := by
    intro i hb
    rcases which hi i with ⟨_, _, h, _⟩ | ⟨_, hd | e⟩
    · exact h
    · obtain ⟨_, _, _, h | h⟩ := hd
      · simp [busy, h] at hb
      · simp [busy, h] at hb
    · rw [e] at hb; simp [busy, oldConn] at hb
  have a := key i h1
  have b := key j h2
  rw [a] at b
  exact Option.some.inj b

/-- The accepter knows of the one that is open. -/
theorem C170_known_partial (r : Bool) (ops : List Op) (s : Na) (hc : Careful (init r) ops) (he : run (init r) ops = some s) (i : Nat)
    (h : busy (s.conns i) = true) : s.cur = some i ∧ s.gone = false := by
  obtain ⟨p, hi⟩ := run_inv hc he
  rcases which hi i with ⟨ph, hp, hcu, _⟩ | ⟨_, hd | e⟩
  · exact ⟨hcu, hi.live (by simp [hp])⟩
  · obtain ⟨_, _, _, h' | h'⟩ := hd
    · simp [busy, h'] at h
    · simp [busy, h'] at h
  · rw [e] at h; simp [busy, oldConn] at h

example : after true ([.startup true] ++ conn 0 ++ [.closeIo 0 7 true, .closed 0, .closeEnd 0 true, .timer, .timeout true])
    (fun s => !busy (s.conns 0) && (s.conns 0).user && busy (s.conns 1)) = true := by decide +kernel

/-- After a second close of a connection, another is opened while the first is still being closed. -/
theorem C170_two_violated :
    after true ([.startup true] ++ conn 0 ++ [.closeIo 0 1 true, .closeIo 0 2 true, .timer, .timeout true])
      (fun s => busy (s.conns 0) && busy (s.conns 1) && s.cur == some 1) = true := by decide +kernel

/-- Whatever is called, in any order, every connection is handed to the user at most once. -/
theorem C170_handed_once (r : Bool) (ops : List Op) (s : Na) (he : run (init r) ops = some s) (i : Nat) : (s.log.filter (· = .newConn i)).length ≤ 1 :=
  (run_once (init_once r) he).le i

/-- A connection is handed over exactly if the accepter is still open when its open is done; otherwise nothing is reported. -/
theorem C170_handed_open {s s' : Na} {i : Nat} {ok : Bool} (hp : (s.conns i).pc = .od4) (q : step s (.openDone i ok) = some s') :
    (s.base = .opened → s'.log = s.log ++ [.newConn i] ∧ (s'.conns i).user = true) ∧ (s.base ≠ .opened → ∀ j, (s'.log.filter (· = .newConn j)).length = (s.log.filter (· = .newConn j)).length) := by
  simp only [step, hp] at q
  split at q
  · cases q
  · unfold openDone4 at q
    simp only at q
    split at q
    · rename_i hb
      cases q
      exact ⟨fun _ => ⟨rfl, by simp [Na.say, Na.setc]⟩, fun h => absurd hb h⟩
    · rename_i hb
      exact ⟨fun h => absurd h hb, fun _ j => (connFree_q q).log j⟩

/-! ## C171: memory is given back -/

/-- The accepter is freed exactly when nothing refers to it: the upper half is gone, no timer, deferred call, thread or
connection holds it. -/
theorem C171_accepter_partial (r : Bool) (ops : List Op) (s : Na) (hc : Careful (init r) ops) (he : run (init r) ops = some s) :
    s.gone = true ↔ (s.accGone = true ∧ s.tm = .idle ∧ s.timers = 0 ∧ s.defer = false ∧ s.deferSw = 0 ∧ s.finEn = 0 ∧ s.drops = 0 ∧ s.cur = none) := by
  obtain ⟨p, hi⟩ := run_inv hc he
  have hcur : s.cur = none ↔ held p = 0 := by
    have := hi.cur
    cases p with
    | none => simpa [held, curOk] using this
    | some ph => obtain ⟨i, e, _⟩ := this; simp [held, e]
  rw [hi.gone0, hi.ref, hcur]
  cases s.accGone <;> cases s.tm <;> cases s.defer <;> simp <;> omega

/-- A connection that was made is the one the accepter knows of, or held by the user, or freed. -/
theorem C171_connections_partial (r : Bool) (ops : List Op) (s : Na) (hc : Careful (init r) ops) (he : run (init r) ops = some s) (i : Nat)
    (hi : i < s.n) : s.cur = some i ∨ (s.conns i).user = true ∨ (s.conns i).gone = true := by
  obtain ⟨p, hinv⟩ := run_inv hc he
  rcases which hinv i with ⟨_, _, h, _⟩ | ⟨_, hd | e⟩
  · exact .inl h
  · obtain ⟨_, _, _, h | h⟩ := hd
    · exact .inr (.inr h)
    · omega
  · rw [e]; exact .inr (.inl rfl)

/-- What the user holds is not freed. -/
theorem C171_user_partial (r : Bool) (ops : List Op) (s : Na) (hc : Careful (init r) ops) (he : run (init r) ops = some s) (i : Nat)
    (hu : (s.conns i).user = true) : (s.conns i).gone = false := by
  obtain ⟨p, hinv⟩ := run_inv hc he
  rcases which hinv i with ⟨ph, _, _, e⟩ | ⟨_, hd | e⟩
  · rw [e] at hu ⊢
    cases ph <;> first | rfl | simp [Ph.conn] at hu
  · simp [hd.1] at hu
  · rw [e]; rfl

example : after true (wholeRun ++ [.freeIo 0 true]) (fun s => s.gone && s.n == 2 && (s.conns 0).gone && (s.conns 1).gone && s.ref == 0) = true := by
  decide +kernel

end Gensio.Conacc
