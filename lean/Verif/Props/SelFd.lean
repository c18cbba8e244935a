import Verif.Lemmas.SelFd

/-!
# Handlers of a file descriptor: C80 and C83

In runs in which handlers are set only while no handler of the descriptor runs, and a registration is replaced only while the
descriptor has not hung up, every registration keeps to its protocol (`C80_partial`) and the descriptor in the epoll set is what
the selector believes (`C83_partial`).  Without these conditions a new registration is lost (`C80_lost_violated`), released memory
is used (`C80_uaf_violated`) and `epoll_ctl` fails (`C83_assert_violated`).  With them, writing is not reported after a hang up
(`C83_write_violated`).
-/

namespace Gensio.SelFd

/-- Reachable by any steps. -/
inductive Reach : St → Prop
  | init : Reach {}
  | step {s s' : St} {a : Act} : Reach s → En s a → exec a s = some s' → Reach s'

/-- Reachable when handlers are set only while no thread is in a handler of the descriptor, and, if this replaces a
registration, only while the descriptor has not hung up. -/
inductive Clean : St → Prop
  | init : Clean {}
  | step {s s' : St} {a : Act} : Clean s → En s a →
      (∀ d, a = .set d → (∀ i d e k, .inH i d e k ∉ s.th) ∧ (s.cur = none ∨ s.saved = false)) → exec a s = some s' → Clean s'

theorem pre_of {s : St} {a : Act}
    (h : ∀ d, a = .set d → (∀ i d e k, Pc.inH i d e k ∉ s.th) ∧ (s.cur = none ∨ s.saved = false)) : Pre s a := by
  cases a <;> try trivial
  rename_i d
  obtain ⟨h1, h2⟩ := h d rfl
  refine ⟨fun p hp => ?_, h2⟩
  cases p <;> try rfl
  exact absurd hp (h1 _ _ _ _)

theorem Clean.inv {s : St} (h : Clean s) : Inv s := by
  induction h with
  | init => exact Inv.init
  | step _ hn hp e ih =>
    obtain ⟨s', e1, e2⟩ := ih.step hn (pre_of hp)
    rw [e1] at e
    cases e
    exact e2

theorem Clean.reach {s : St} (h : Clean s) : Reach s := by
  induction h with
  | init => exact .init
  | step _ hn _ e ih => exact .step ih hn e

theorem trok_suffix {p q : List TEv} (h : TrOk (p ++ q)) : TrOk q := by
  induction p with
  | nil => exact h
  | cons x p ih => apply ih; cases x <;> exact h.1

theorem cnt_zero {f : TEv → Bool} {l : List TEv} (h : l.countP f = 0) (x : TEv) (hx : f x = true) : x ∉ l := by
  intro hm
  rw [List.countP_eq_zero] at h
  exact h x hm hx

/-- No handler of a registration starts after it was cleared or replaced. -/
theorem no_start {p q : List TEv} {i : Nat} {rpt : Bool} (h : TrOk (p ++ q)) (hg : .gone i rpt ∈ q) : .start i ∉ p := by
  intro hm
  obtain ⟨a, c, rfl⟩ := List.append_of_mem hm
  rw [List.append_assoc] at h
  have := (trok_suffix h).2.1
  exact cnt_zero this (.gone i rpt) (by simp [isGone]) (by simp [hg])

/-! ## C80 -/

/-- **C80**, in clean runs.
* No step fails an assertion or uses released memory.
* A registration is made once and cleared or replaced at most once, after it was made; its handlers start only in between.
* The cleared callback gets the data of the registration, at most once, after the registration was cleared or replaced with a
  report, when all its handlers have returned, and no handler starts afterwards.
* Memory of a registration is released only after it was cleared or replaced, when no thread is in a handler or in the cleared
  callback of it; and if it was to be reported then it was.
* Of a registration that was cleared or replaced the memory has been released, or a thread is in one of its handlers or in the
  cleared callback, or in `sel_set_fd_handlers`, or the runner is queued.

Partial: in clean runs only. -/
theorem C80_partial {s : St} (h : Clean s) :
    (∀ a, En s a → Pre s a → ∃ s', exec a s = some s') ∧
    (∀ i p q, s.tr = p ++ .start i :: q → (∃ d, .set i d ∈ q) ∧ ∀ r, .gone i r ∉ q) ∧
    (∀ i r p q, s.tr = p ++ .gone i r :: q → (∃ d, .set i d ∈ q) ∧ (∀ r', .gone i r' ∉ q) ∧ .start i ∉ p) ∧
    (∀ i d p q, s.tr = p ++ .done i d :: q → d = some i ∧ (∀ d', .done i d' ∉ q) ∧ .gone i true ∈ q ∧ .set i true ∈ q ∧
      q.count (.start i) = q.count (.ret i) ∧ .start i ∉ p) ∧
    (∀ i, (s.regs i).freed = true → (∃ r, .gone i r ∈ s.tr) ∧ (∀ d e k, .inH i d e k ∉ s.th) ∧ (∀ e k, .inDone i e k ∉ s.th) ∧
      (.set i true ∈ s.tr → .gone i true ∈ s.tr → .done i (some i) ∈ s.tr)) ∧
    (∀ i r, .gone i r ∈ s.tr → (s.regs i).freed = true ∨ (s.regs i).queued = true ∨ (∃ d e k, .inH i d e k ∈ s.th) ∨
      (∃ e k, .inDone i e k ∈ s.th) ∨ .setA i ∈ s.th ∨ .setB i ∈ s.th) := by
  have hi := h.inv
  have ht := hi.r.tr
  have hset : ∀ {i : Nat} {q : List TEv}, q.countP (isSet i) = 1 → ∃ d, .set i d ∈ q := by
    intro i q hq
    have : 0 < q.countP (isSet i) := by omega
    rw [List.countP_pos_iff] at this
    obtain ⟨x, hx, hx2⟩ := this
    cases x <;> simp [isSet] at hx2
    subst hx2
    exact ⟨_, hx⟩
  have hcount : ∀ {i : Nat} {q : List TEv}, q.countP (isStart i) = q.count (.start i) ∧ q.countP (isRet i) = q.count (.ret i) := by
    intro i q
    constructor <;> (rw [List.count_eq_countP]; apply List.countP_congr; intro x _; cases x <;> simp [isStart, isRet])
  have cpos : ∀ {f : Nat → Pc → Bool} {i : Nat} {x : Pc}, x ∈ s.th → f i x = true → 0 < cn f i s.th := by
    intro f i x hx hf
    rw [cn, List.countP_pos_iff]
    exact ⟨x, hx, hf⟩
  refine ⟨fun a hn hp => ?_, fun i p q e => ?_, fun i r p q e => ?_, fun i d p q e => ?_, fun i hf => ?_, fun i r hg => ?_⟩
  · obtain ⟨s', e, _⟩ := hi.step hn hp
    exact ⟨s', e⟩
  · rw [e] at ht
    have := trok_suffix ht
    exact ⟨hset this.2.2, fun r => cnt_zero this.2.1 _ (by simp [isGone])⟩
  · rw [e] at ht
    have := trok_suffix ht
    exact ⟨hset this.2.2, fun r => cnt_zero this.2.1 _ (by simp [isGone]), no_start ht (rpt := r) (by simp)⟩
  · rw [e] at ht
    obtain ⟨-, h1, h2, h3, h4, h5⟩ := trok_suffix ht
    exact ⟨h1, fun d' => cnt_zero h2 _ (by simp [isDone]), h3, h4, by rw [← hcount.1, ← hcount.2]; exact h5,
      no_start ht (rpt := true) (by simp [h3])⟩
  · have q := hi.r.ri i
    have qf := q.fD hf
    have q1 := q.tok
    simp only [hf, b_true, qf.2, bne_self_eq_false, Bool.and_false, b_false] at q1
    have hin : i < s.n := by grind [b]
    have hc : s.cur ≠ some i := by intro x; simp [x] at q1; grind [b]
    simp only [hin, decide_true, b_true] at q1
    refine ⟨?_, fun d e k hm => ?_, fun e k hm => ?_, fun h1 h2 => ?_⟩
    · have := q.gones
      simp [hin, hc, sm] at this
      have h0 : 0 < s.tr.countP (isGone i) := by omega
      rw [List.countP_pos_iff] at h0
      obtain ⟨x, hx, hx2⟩ := h0
      cases x <;> simp [isGone] at hx2
      subst hx2
      exact ⟨_, hx⟩
    · have := cpos (f := Pc.isH) (i := i) hm (by simp [Pc.isH])
      have := q.use
      simp only [sm] at this
      omega
    · have := cpos (f := Pc.isD) (i := i) hm (by simp [Pc.isD])
      simp only [sm] at q1
      omega
    · have hng : .gone i false ∉ s.tr := by
        intro h3
        obtain ⟨a, c, ea⟩ := List.append_of_mem h2
        rw [ea] at ht h3
        simp only [List.mem_append, List.mem_cons, TEv.gone.injEq, Bool.false_eq_true, and_false, false_or] at h3
        rcases h3 with h3 | h3
        · obtain ⟨a', c', rfl⟩ := List.append_of_mem h3
          rw [List.append_assoc] at ht
          have := (trok_suffix ht).2.1
          exact cnt_zero this (.gone i true) (by simp [isGone]) (by simp)
        · have := (trok_suffix ht).2.1
          exact cnt_zero this _ (by simp [isGone]) h3
      have hd := q.rpt (by simpa using hin)
      have hd : (s.regs i).done = true := by rw [hd]; simp [sm, h1, hng]
      have := q.dones
      simp [hd, hf, sm] at this
      have h0 : 0 < s.tr.countP (isDone i) := by omega
      rw [List.countP_pos_iff] at h0
      obtain ⟨x, hx, hx2⟩ := h0
      cases x <;> simp [isDone] at hx2
      rename_i j d
      subst hx2
      obtain ⟨a, c, ea⟩ := List.append_of_mem hx
      rw [ea] at ht
      have := (trok_suffix ht).2.1
      rw [this] at hx
      exact hx
  · have q := hi.r.ri i
    have hp : 0 < s.tr.countP (isGone i) := by rw [List.countP_pos_iff]; exact ⟨_, hg, by simp [isGone]⟩
    have g := q.gones
    simp only [sm] at g
    have hin : i < s.n ∧ s.cur ≠ some i := by grind [b]
    have q1 := q.tok
    simp only [hin.1, hin.2, decide_true, decide_false, b_true, b_false, sm] at q1
    have mem : ∀ {f : Nat → Pc → Bool}, 0 < cn f i s.th → ∃ x ∈ s.th, f i x = true := by
      intro f hf
      rw [cn, List.countP_pos_iff] at hf
      exact hf
    by_cases c1 : (s.regs i).freed = true
    · exact .inl c1
    by_cases c2 : (s.regs i).queued = true
    · exact .inr (.inl c2)
    simp only [c1, c2, b_false] at q1
    by_cases c3 : 0 < cn Pc.isA i s.th
    · obtain ⟨x, hx, hx2⟩ := mem c3
      cases x <;> simp [Pc.isA] at hx2
      subst hx2; simp [hx]
    by_cases c4 : 0 < cn Pc.isB i s.th
    · obtain ⟨x, hx, hx2⟩ := mem c4
      cases x <;> simp [Pc.isB] at hx2
      subst hx2; simp [hx]
    by_cases c5 : 0 < cn Pc.isD i s.th
    · obtain ⟨x, hx, hx2⟩ := mem c5
      cases x <;> simp [Pc.isD] at hx2
      subst hx2; exact .inr (.inr (.inr (.inl ⟨_, _, hx⟩)))
    have c6 : (s.regs i).use ≠ 0 := by grind [b]
    have : 0 < cn Pc.isH i s.th := by have := q.use; simp only [sm] at this; omega
    obtain ⟨x, hx, hx2⟩ := mem this
    cases x <;> simp [Pc.isH] at hx2
    subst hx2; exact .inr (.inr (.inl ⟨_, _, _, hx⟩))

/-- Run a list of steps, each of which may happen. -/
def play : List Act → St → Option St
  | [], s => some s
  | a :: l, s => (exec a s).bind (play l)

instance (s : St) (a : Act) : Decidable (Pre s a) := by
  cases a <;> unfold Pre <;> (try unfold NoH) <;> infer_instance

def isWait : Option Pc → Bool
  | some (.wait _) => true
  | _ => false

/-- `En` as a test. -/
def enB (s : St) : Act → Bool
  | .clear _ | .enable _ _ => s.n != 0
  | .event i e => s.armed && (!e.inp || s.mRd) && (!e.out || s.mWr) && (!e.pri || s.mEx) && isWait s.th[i]?
  | .cont i => decide (i < s.th.length)
  | .runner i => (s.regs i).queued
  | .set _ | .other | .wait => true

theorem en_of {s : St} {a : Act} (h : enB s a = true) : En s a := by
  cases a <;> simp_all [enB, En]
  rename_i i e
  obtain ⟨⟨⟨⟨-, h1⟩, h2⟩, h3⟩, h⟩ := h
  generalize s.th[i]? = o at h
  refine ⟨?_, ?_, ?_, ?_⟩
  · intro x; rcases h1 with y | y; · simp [x] at y
    · exact y
  · intro x; rcases h2 with y | y; · simp [x] at y
    · exact y
  · intro x; rcases h3 with y | y; · simp [x] at y
    · exact y
  · cases o with
    | none => simp [isWait] at h
    | some p => cases p <;> simp [isWait] at h; exact ⟨_, rfl⟩

def rplay : List Act → St → Option St
  | [], s => some s
  | a :: l, s => if enB s a then (exec a s).bind (rplay l) else none

def cplay : List Act → St → Option St
  | [], s => some s
  | a :: l, s => if enB s a ∧ Pre s a then (exec a s).bind (cplay l) else none

theorem reach_play {l : List Act} : ∀ {s s' : St}, Reach s → rplay l s = some s' → Reach s' := by
  induction l with
  | nil => intro s s' h e; cases e; exact h
  | cons a l ih =>
    intro s s' h e
    simp only [rplay] at e
    split at e
    · rename_i c
      obtain ⟨s1, e1, e2⟩ := Option.bind_eq_some_iff.1 e
      exact ih (.step h (en_of c) e1) e2
    · cases e

theorem clean_play {l : List Act} : ∀ {s s' : St}, Clean s → cplay l s = some s' → Clean s' := by
  induction l with
  | nil => intro s s' h e; cases e; exact h
  | cons a l ih =>
    intro s s' h e
    simp only [cplay] at e
    split at e
    · rename_i c
      obtain ⟨s1, e1, e2⟩ := Option.bind_eq_some_iff.1 e
      refine ih (.step h (en_of c.1) ?_ e1) e2
      intro d hd
      subst hd
      obtain ⟨c1, c2⟩ := c.2
      exact ⟨fun i d e k hm => by have := c1 _ hm; simp [Pc.hand] at this, c2⟩
    · cases e

theorem reach_of (l : List Act) {P : St → Bool} (h : (rplay l {}).any P = true) : ∃ s, Reach s ∧ P s = true := by
  obtain ⟨s, h1, h2⟩ := Option.any_eq_true _ _ |>.1 h
  exact ⟨s, reach_play .init h1, h2⟩

theorem clean_of (l : List Act) {P : St → Bool} (h : (cplay l {}).any P = true) : ∃ s, Clean s ∧ P s = true := by
  obtain ⟨s, h1, h2⟩ := Option.any_eq_true _ _ |>.1 h
  exact ⟨s, clean_play .init h1, h2⟩

def rdEv : Evs := { inp := true }
def hupEv : Evs := { hup := true }

/-- A read handler is called. -/
def reading : List Act := [.set true, .enable .rd true, .wait, .event 0 rdEv, .cont 0]

/-- A registration is cleared by its own handler: the cleared callback is called after the handler, then memory is released. -/
example : (cplay (reading ++ [.clear true, .cont 0, .cont 0]) {}).any (fun s =>
    decide (s.tr = [.done 0 (some 0), .ret 0, .gone 0 true, .start 0, .set 0 true]) && (s.regs 0).freed && s.th.isEmpty) = true := by
  decide +kernel

/-- Two threads are in handlers of one registration, which is cleared: the last one calls the cleared callback. -/
example : (cplay (reading ++ [.enable .rd false, .enable .rd true, .wait, .event 0 rdEv, .cont 0, .clear true, .cont 0, .cont 0, .cont 0]) {}).any
    (fun s => decide (s.tr = [.done 0 (some 0), .ret 0, .ret 0, .gone 0 true, .start 0, .start 0, .set 0 true]) && (s.regs 0).freed) = true := by
  decide +kernel

/-- A registration is replaced: the runner reports it. -/
example : (cplay [.set true, .set true, .cont 0, .cont 0, .runner 0] {}).any
    (fun s => decide (s.tr = [.done 0 (some 0), .set 1 true, .gone 0 true, .set 0 true]) && (s.regs 0).freed && decide (s.cur = some 1)) = true := by
  decide +kernel

/-- **C80 is false**: a handler clears its registration and sets new handlers for the descriptor; when it returns, the new
registration is taken from the descriptor (:1233).  It was not cleared, a clear does nothing, and its memory stays. -/
theorem C80_lost_violated : ∃ s, Reach s ∧ (s.cur = none ∧ (s.regs 1).freed = false ∧ (s.regs 1).queued = false ∧ s.th = [] ∧
    (∀ r, .gone 1 r ∉ s.tr) ∧ .set 1 true ∈ s.tr) ∧ ∀ rpt, (exec (.clear rpt) s).any (fun s' => s'.tr = s.tr && s'.cur = none) = true := by
  obtain ⟨s, h1, h2⟩ := reach_of (reading ++ [.clear true, .set true, .cont 0, .cont 0]) (P := fun s => s.cur = none && !(s.regs 1).freed &&
    !(s.regs 1).queued && s.th.isEmpty && s.tr = [.done 0 (some 0), .ret 0, .set 1 true, .gone 0 true, .start 0, .set 0 true])
    (by decide +kernel)
  simp only [Bool.and_eq_true, decide_eq_true_eq, Bool.not_eq_true', List.isEmpty_iff] at h2
  obtain ⟨⟨⟨⟨a1, a2⟩, a3⟩, a4⟩, a5⟩ := h2
  refine ⟨s, h1, ⟨a1, a2, a3, a4, ?_, ?_⟩, fun rpt => ?_⟩
  · intro r; simp [a5]
  · simp [a5]
  · simp [exec, clear, a1, initFd]

/-- The same when the handler replaces its registration: its own cleared callback is called, the new registration is lost. -/
theorem C80_replace_violated : ∃ s, Reach s ∧ (decide (s.cur = none) && s.th.isEmpty && !(s.regs 1).freed && !(s.regs 1).queued &&
    decide (s.tr = [.done 0 (some 0), .ret 0, .set 1 true, .gone 0 true, .start 0, .set 0 true])) = true :=
  reach_of (reading ++ [.set true, .cont 0, .cont 0, .cont 0, .cont 0]) (by decide +kernel)

/-- **C80 is false**: while a handler runs, another thread replaces the registration and has marked the old one as deleted, without
the lock (:670).  The handler returns, the cleared callback is called and memory is released; then the other thread looks at it
(:671). -/
theorem C80_uaf_violated : ∃ s, Reach s ∧ En s (.cont 0) ∧ s.th[0]? = some (.setB 0) ∧ (s.regs 0).freed = true ∧ exec (.cont 0) s = none := by
  obtain ⟨s, h1, h2⟩ := reach_of (reading ++ [.set true, .cont 0, .cont 1, .cont 0]) (P := fun s => s.th[0]? = some (.setB 0) && (s.regs 0).freed &&
    (exec (.cont 0) s).isNone) (by decide +kernel)
  simp only [Bool.and_eq_true, decide_eq_true_eq, Option.isNone_iff_eq_none] at h2
  refine ⟨s, h1, ?_, h2.1.1, h2.1.2, h2.2⟩
  have := h2.1.1
  show 0 < s.th.length
  cases e : s.th with
  | nil => simp [e] at this
  | cons => simp

/-! ## C83 -/

/-- **C83**, in clean runs.
* The descriptor is in the epoll set exactly when there is a registration and it has not hung up; so `epoll_ctl` does not fail.
* When it reports, it reports reading and exceptions exactly when they are enabled, and writing only when enabled.
* When there is a registration, it reports, or a thread works on a report, or it has hung up and neither reading nor exceptions
  are enabled.
* After a clear, no event from before it leads to a call of a handler.

Partial: in clean runs only, and nothing is said about when writing is reported. -/
theorem C83_partial {s : St} (h : Clean s) :
    (s.added = true ↔ s.cur ≠ none ∧ s.saved = false) ∧
    (s.armed = true → s.added = true ∧ s.mRd = s.rd ∧ s.mEx = s.ex ∧ (s.mWr = true → s.wr = true)) ∧
    (s.cur ≠ none → s.armed = true ∨ (∃ p ∈ s.th, p.busy = true) ∨ (s.saved = true ∧ s.rd = false ∧ s.ex = false)) ∧
    (∀ i c e s', s.th[i]? = some (.got c e) → c ≠ s.del → exec (.cont i) s = some s' → s'.tr = s.tr) := by
  have hi := h.inv
  refine ⟨⟨fun ha => ?_, fun ⟨h1, h2⟩ => ?_⟩, fun ha => ⟨hi.e.arm ha, hi.e.mask ha⟩, hi.e.idle, fun i c e s' h1 h2 h3 => ?_⟩
  · have : s.cur ≠ none := fun x => by have := hi.e.cn x; simp [ha] at this
    refine ⟨this, ?_⟩
    have := hi.e.cs this
    simp [ha] at this
    exact this
  · have := hi.e.cs h1
    simp [h2] at this
    exact this
  · simp only [exec, h1, resume, got, if_pos h2] at h3
    exact (rearm_same h3).tr

/-- The event is for handler number `k`, which is enabled. -/
def Wanted (e : Evs) (k : Nat) (s : St) : Prop :=
  (k = 0 ∧ s.rd = true ∧ (e.inp = true ∨ e.hup = true)) ∨ (k = 1 ∧ s.wr = true ∧ e.out = true) ∨
  (k = 2 ∧ s.ex = true ∧ (e.pri = true ∨ e.err = true))

theorem run_wanted {s s' : St} {e : Evs} {k : Nat} {i : Nat} {d : Option Nat} {e' : Evs} {k' : Nat}
    (hs : SelFd.runFrom e k s = some s') (hm : .inH i d e' k' ∈ s'.th) :
    .inH i d e' k' ∈ s.th ∨ (Wanted e' k' s' ∧ s'.cur = some i ∧ d = s'.data) := by
  have re : ∀ {s1}, SelFd.rearm s1 = some s' → .inH i d e' k' ∈ s1.th := by
    intro s1 h; rw [← (rearm_same h).th]; exact hm
  have st : ∀ {s1 s2 : St} {en : Bool} {j k : Nat}, startCall en s1 = some (s2, some j) → (en = true → Wanted e k s1) →
      s' = park (.inH j s2.data e k) s2 → .inH i d e' k' ∈ s1.th ∨ (Wanted e' k' s' ∧ s'.cur = some i ∧ d = s'.data) := by
    intro s1 s2 en j k h hw hp
    subst hp
    unfold startCall at h
    split at h
    · rename_i hen
      split at h
      · simp at h
      · rename_i o hc
        split at h
        · cases h
        · simp only [Option.some.injEq, Prod.mk.injEq] at h
          obtain ⟨rfl, rfl⟩ := h
          simp only [park, St.upd, List.mem_cons, Pc.inH.injEq] at hm
          rcases hm with ⟨rfl, rfl, rfl, rfl⟩ | hm
          · exact .inr ⟨hw hen, hc, rfl⟩
          · exact .inl hm
    · simp at h
  have w0 : ∀ s1 : St, wanted e 0 s1 = true → Wanted e 0 s1 := by
    intro s1 h; simp only [wanted, Bool.and_eq_true, Bool.or_eq_true] at h; exact .inl ⟨rfl, h.2, h.1⟩
  have w1 : ∀ s1 : St, wanted e 1 s1 = true → Wanted e 1 s1 := by
    intro s1 h; simp only [wanted, Bool.and_eq_true, Bool.or_eq_true] at h; exact .inr (.inl ⟨rfl, h.2, h.1⟩)
  have w2 : ∀ s1 : St, wanted e 2 s1 = true → Wanted e 2 s1 := by
    intro s1 h; simp only [wanted, Bool.and_eq_true, Bool.or_eq_true] at h; exact .inr (.inr ⟨rfl, h.2, h.1⟩)
  have r2 : ∀ {s1 : St}, SelFd.run2 e s1 = some s' → .inH i d e' k' ∈ s1.th ∨ (Wanted e' k' s' ∧ s'.cur = some i ∧ d = s'.data) := by
    intro s1 h
    unfold SelFd.run2 at h
    split at h
    · cases h
    · rename_i g; cases h; exact st g (w2 s1) rfl
    · rename_i g; rw [startCall_none g] at h; exact .inl (re h)
  have r1 : ∀ {s1 : St}, SelFd.run1 e s1 = some s' → .inH i d e' k' ∈ s1.th ∨ (Wanted e' k' s' ∧ s'.cur = some i ∧ d = s'.data) := by
    intro s1 h
    unfold SelFd.run1 at h
    split at h
    · cases h
    · rename_i g; cases h; exact st g (w1 s1) rfl
    · rename_i g; rw [startCall_none g] at h; exact r2 h
  unfold SelFd.runFrom at hs
  split at hs
  · unfold SelFd.run0 at hs
    split at hs
    · cases hs
    · rename_i g; cases hs; exact st g (w0 s) rfl
    · rename_i g; rw [startCall_none g] at hs; exact r1 hs
  · exact r1 hs
  · exact r2 hs
  · exact .inl (re hs)

/-- In every run, a handler is called only for an event it is meant for and when it is enabled, and it is one of the current
registration, with its data. -/
theorem C83_enabled {s s' : St} {a : Act} (e : exec a s = some s') {i : Nat} {d : Option Nat} {ev : Evs} {k : Nat}
    (hm : .inH i d ev k ∈ s'.th) : .inH i d ev k ∈ s.th ∨ (Wanted ev k s' ∧ s'.cur = some i ∧ d = s'.data) := by
  cases a with
  | set x =>
    simp only [exec, set] at e
    split at e
    · rw [(updateFd_same e).th] at hm; exact .inl hm
    · obtain ⟨s1, e1, e2⟩ := Option.bind_eq_some_iff.1 e
      cases e2
      simp only [park, List.mem_cons, reduceCtorEq, false_or] at hm
      rw [(updateFd_same e1).th] at hm
      exact .inl hm
  | clear rpt =>
    simp only [exec, clear] at e
    split at e
    · cases e; exact .inl hm
    · obtain ⟨s1, e1, e2⟩ := Option.bind_eq_some_iff.1 e
      obtain ⟨s2, e3, e4⟩ := Option.bind_eq_some_iff.1 e2
      cases e4
      unfold clearReg at e3
      split at e3
      · cases e3
      · cases e3
        left
        have := (updateFd_same e1).th
        simpa [initFd, St.upd, this] using hm
  | enable x v =>
    simp only [exec, enable] at e
    split at e
    · cases e; exact .inl hm
    split at e
    · cases e; exact .inl hm
    · rw [(updateFd_same e).th] at hm
      cases x <;> exact .inl hm
  | other => cases e; exact .inl hm
  | wait => cases e; simp only [park, List.mem_cons, reduceCtorEq, false_or] at hm; exact .inl hm
  | event j x =>
    simp only [exec, event] at e
    split at e
    · cases e
      simp only [List.mem_cons, reduceCtorEq, false_or] at hm
      exact .inl (List.eraseIdx_subset hm)
    · cases e
  | cont j =>
    simp only [exec] at e
    split at e
    · cases e
    rename_i p hp
    have sub : ∀ {x}, x ∈ s.th.eraseIdx j → x ∈ s.th := fun h => List.eraseIdx_subset h
    cases p with
    | wait c => cases e; exact .inl (sub hm)
    | got c x =>
      simp only [resume, SelFd.got] at e
      split at e
      · rw [(rearm_same e).th] at hm; exact .inl (sub hm)
      · split at e
        · obtain ⟨s1, e1, e2⟩ := Option.bind_eq_some_iff.1 e
          rcases run_wanted (k := 0) e2 hm with h | h
          · rw [(updateFd_same e1).th] at h; exact .inl (sub h)
          · exact .inr h
        · rcases run_wanted (k := 0) e hm with h | h
          · exact .inl (sub h)
          · exact .inr h
    | setA o =>
      simp only [resume, setA] at e
      split at e
      · cases e
      · cases e; simp only [park, St.upd, List.mem_cons, reduceCtorEq, false_or] at hm; exact .inl (sub hm)
    | setB o =>
      simp only [resume, setB] at e
      split at e
      · cases e
      · split at e <;> cases e <;> exact .inl (sub hm)
    | inH o y x m =>
      simp only [resume, retH] at e
      split at e
      · cases e
      split at e
      · split at e
        · cases e
          simp only [park, St.upd, List.mem_cons, reduceCtorEq, false_or] at hm; exact .inl (sub hm)
        · rcases run_wanted e hm with h | h
          · exact .inl (sub h)
          · exact .inr h
      · rcases run_wanted e hm with h | h
        · exact .inl (sub h)
        · exact .inr h
    | inDone o x m =>
      simp only [resume, retDone] at e
      split at e
      · cases e
      · rcases run_wanted e hm with h | h
        · exact .inl (sub h)
        · exact .inr h
  | runner j =>
    simp only [exec, runner] at e
    split at e
    · cases e
    · simp only [Option.some.injEq] at e
      subst e
      left
      split at hm <;> exact hm

/-- **C83**: clearing the handlers disables all of them, so that handlers set afterwards are not called before they are enabled. -/
theorem C83_clear {s s' : St} {rpt : Bool} (e : exec (.clear rpt) s = some s') :
    s'.cur = none ∧ s'.rd = false ∧ s'.wr = false ∧ s'.ex = false ∧
    ∀ d s'', exec (.set d) s' = some s'' → s''.rd = false ∧ s''.wr = false ∧ s''.ex = false := by
  have h : s'.cur = none ∧ s'.rd = false ∧ s'.wr = false ∧ s'.ex = false := by
    simp only [exec, clear] at e
    split at e
    · cases e; exact ⟨rfl, rfl, rfl, rfl⟩
    · obtain ⟨s1, _, e2⟩ := Option.bind_eq_some_iff.1 e
      obtain ⟨s2, _, e4⟩ := Option.bind_eq_some_iff.1 e2
      cases e4; exact ⟨rfl, rfl, rfl, rfl⟩
  obtain ⟨h1, h2, h3, h4⟩ := h
  refine ⟨h1, h2, h3, h4, fun d s'' e => ?_⟩
  simp only [exec, set, h1, updateFd] at e
  split at e
  · simp only [reduceCtorEq, if_false] at e
    split at e
    · cases e; exact ⟨h2, h3, h4⟩
    · simp only [ctl] at e
      split at e <;> cases e; exact ⟨h2, h3, h4⟩
  · simp only [ctl] at e
    split at e <;> cases e; exact ⟨h2, h3, h4⟩

/-- Reading and writing were enabled before. -/
example : (cplay [.set true, .enable .rd true, .enable .wr true, .clear true, .set true] {}).any (fun s =>
    !s.rd && !s.wr && decide (s.cur = some 1)) = true := by decide +kernel

/-- Clean runs without hang up and error. -/
inductive Calm : St → Prop
  | init : Calm {}
  | step {s s' : St} {a : Act} : Calm s → En s a →
      (∀ d, a = .set d → (∀ i d e k, .inH i d e k ∉ s.th) ∧ (s.cur = none ∨ s.saved = false)) →
      (∀ i e, a = .event i e → e.hup = false ∧ e.err = false) → exec a s = some s' → Calm s'

theorem Calm.clean {s : St} (h : Calm s) : Clean s := by
  induction h with
  | init => exact .init
  | step _ hn hp _ e ih => exact .step ih hn hp e

/-- What holds then. -/
structure K (s : St) : Prop where
  sv : s.saved = false
  wr : s.armed = true → s.mWr = s.wr
  got : ∀ c e, .got c e ∈ s.th → e.hup = false ∧ e.err = false

theorem K.upd {op : Op} {s s' : St} (h : s.saved = false) (g : ∀ c e, .got c e ∈ s.th → e.hup = false ∧ e.err = false)
    (e : updateFd op s = some s') : K s' := by
  have sa := updateFd_same e
  simp only [updateFd, h, Bool.false_eq_true, if_false] at e
  cases op <;> simp only [ctl] at e <;> split at e <;> cases e <;> exact ⟨h, fun x => by simp_all, g⟩

theorem K.rearm {s s' : St} (h : K s) (e : rearm s = some s') : K s' := by
  unfold SelFd.rearm at e
  split at e
  · cases e; exact h
  · exact K.upd h.sv h.got e

theorem K.start {s s1 : St} {en : Bool} {i k : Nat} {e : Evs} (h : K s) (hs : startCall en s = some (s1, some i)) :
    K (park (.inH i s1.data e k) s1) := by
  unfold startCall at hs
  split at hs
  · split at hs
    · simp at hs
    · split at hs
      · cases hs
      simp only [Option.some.injEq, Prod.mk.injEq] at hs
      obtain ⟨rfl, rfl⟩ := hs
      exact ⟨h.sv, h.wr, fun c e hm => h.got c e (by simpa [park, St.upd] using hm)⟩
  · simp at hs

theorem K.run2 {s s' : St} {e : Evs} (h : K s) (hs : SelFd.run2 e s = some s') : K s' := by
  unfold SelFd.run2 at hs
  split at hs
  · cases hs
  · rename_i g; cases hs; exact h.start g
  · rename_i g; rw [startCall_none g] at hs; exact h.rearm hs

theorem K.run1 {s s' : St} {e : Evs} (h : K s) (hs : SelFd.run1 e s = some s') : K s' := by
  unfold SelFd.run1 at hs
  split at hs
  · cases hs
  · rename_i g; cases hs; exact h.start g
  · rename_i g; rw [startCall_none g] at hs; exact h.run2 hs

theorem K.run0 {s s' : St} {e : Evs} (h : K s) (hs : SelFd.run0 e s = some s') : K s' := by
  unfold SelFd.run0 at hs
  split at hs
  · cases hs
  · rename_i g; cases hs; exact h.start g
  · rename_i g; rw [startCall_none g] at hs; exact h.run1 hs

theorem K.runFrom {s s' : St} {e : Evs} {k : Nat} (h : K s) (hs : SelFd.runFrom e k s = some s') : K s' := by
  unfold SelFd.runFrom at hs
  split at hs
  · exact h.run0 hs
  · exact h.run1 hs
  · exact h.run2 hs
  · exact h.rearm hs

theorem K.step {s s' : St} {a : Act} (h : K s) (hi : Inv s) (hn : En s a) (hv : ∀ i e, a = .event i e → e.hup = false ∧ e.err = false)
    (e : exec a s = some s') : K s' := by
  cases a with
  | set d =>
    simp only [exec, set] at e
    split at e
    · exact K.upd (s := _) (by exact h.sv) (by exact h.got) e
    · obtain ⟨s1, e1, e2⟩ := Option.bind_eq_some_iff.1 e
      cases e2
      have := K.upd (by rfl) (by exact h.got) e1
      exact ⟨this.sv, this.wr, fun c e hm => this.got c e (by simpa [park] using hm)⟩
  | clear rpt =>
    simp only [exec, clear] at e
    split at e
    · cases e
      rename_i hc
      refine ⟨h.sv, fun x => ?_, h.got⟩
      have := hi.e.arm x
      simp [hi.e.cn hc] at this
    · obtain ⟨s1, e1, e2⟩ := Option.bind_eq_some_iff.1 e
      obtain ⟨s2, e3, e4⟩ := Option.bind_eq_some_iff.1 e2
      cases e4
      have sa := updateFd_same e1
      simp only [updateFd, h.sv, Bool.false_eq_true, if_false, ctl] at e1
      split at e1
      · cases e1
        unfold clearReg at e3
        split at e3
        · cases e3
        · cases e3
          exact ⟨rfl, fun x => by simp [initFd, St.upd] at x, h.got⟩
      · cases e1
  | enable d v =>
    simp only [exec, enable] at e
    split at e
    · cases e; exact h
    split at e
    · cases e; exact h
    · refine K.upd (s := s.setEn v d) ?_ ?_ e
      · cases d <;> exact h.sv
      · cases d <;> exact h.got
  | other => cases e; exact ⟨h.sv, h.wr, h.got⟩
  | wait => cases e; exact ⟨h.sv, h.wr, fun c e hm => h.got c e (by simpa [park] using hm)⟩
  | event i ev =>
    simp only [exec, event] at e
    split at e
    · cases e
      refine ⟨h.sv, fun x => by simp at x, fun c e' hm => ?_⟩
      simp only [List.mem_cons, Pc.got.injEq] at hm
      rcases hm with ⟨-, rfl⟩ | hm
      · exact hv i e' rfl
      · exact h.got c e' (List.eraseIdx_subset hm)
    · cases e
  | cont i =>
    have hn : i < s.th.length := hn
    have hp : s.th[i]? = some s.th[i] := by simp [hn]
    have hin : s.th[i] ∈ s.th := List.getElem_mem hn
    generalize s.th[i] = p at hp hin
    have h0 : K { s with th := s.th.eraseIdx i } := ⟨h.sv, h.wr, fun c e hm => h.got c e (List.eraseIdx_subset hm)⟩
    simp only [exec, hp] at e
    generalize hs0 : ({ s with th := s.th.eraseIdx i } : St) = s0 at *
    have up : ∀ j f, K (s0.upd j f) := fun j f => ⟨h0.sv, h0.wr, h0.got⟩
    cases p with
    | wait c => cases e; exact h0
    | got c ev =>
      obtain ⟨v1, v2⟩ := h.got c ev hin
      simp only [resume, SelFd.got, v1, v2, Bool.or_self, Bool.false_eq_true, if_false] at e
      split at e
      · exact h0.rearm e
      · exact h0.run0 e
    | setA o =>
      simp only [resume, setA] at e
      split at e
      · cases e
      · cases e
        exact ⟨h0.sv, h0.wr, fun c e hm => h0.got c e (by simpa [park, St.upd] using hm)⟩
    | setB o =>
      simp only [resume, setB] at e
      split at e
      · cases e
      · split at e <;> cases e
        · exact up _ _
        · exact h0
    | inH j d ev k =>
      simp only [resume, retH] at e
      split at e
      · cases e
      split at e
      · split at e
        · cases e
          exact ⟨h0.sv, h0.wr, fun c e hm => h0.got c e (by simpa [park, St.upd] using hm)⟩
        · refine K.runFrom ?_ e
          exact ⟨h0.sv, h0.wr, h0.got⟩
      · refine K.runFrom ?_ e
        exact ⟨h0.sv, h0.wr, h0.got⟩
    | inDone j ev k =>
      simp only [resume, retDone] at e
      split at e
      · cases e
      · exact K.runFrom (up _ _) e
  | runner i =>
    simp only [exec, runner] at e
    split at e
    · cases e
    · simp only [Option.some.injEq] at e
      subst e
      split <;> exact ⟨h.sv, h.wr, h.got⟩

/-- **C83 for writing**, in clean runs without hang up and error: when there is a registration, it reports exactly what is enabled,
or a thread works on a report. -/
theorem C83_calm_partial {s : St} (h : Calm s) (hc : s.cur ≠ none) :
    (s.armed = true ∧ s.mRd = s.rd ∧ s.mWr = s.wr ∧ s.mEx = s.ex) ∨ ∃ p ∈ s.th, p.busy = true := by
  have hk : K s := by
    clear hc
    induction h with
    | init => exact ⟨rfl, fun x => by simp at x, fun c e x => by simp at x⟩
    | step hs hn _ hv e ih => exact ih.step hs.clean.inv hn hv e
  have hi := h.clean.inv
  rcases hi.e.idle hc with x | x | x
  · have := hi.e.mask x
    exact .inl ⟨x, this.1, hk.wr x, this.2.1⟩
  · exact .inr x
  · simp [hk.sv] at x

/-- Reading is reported, in a clean run and then in a loop. -/
example : (cplay (reading ++ [.cont 0, .wait, .event 0 rdEv, .cont 0, .cont 0]) {}).any (fun s =>
    decide (s.tr = [.ret 0, .start 0, .ret 0, .start 0, .set 0 true]) && s.armed && s.added) = true := by
  decide +kernel

/-- After a hang up reading and exceptions are reported again and again while enabled. -/
example : (cplay [.set true, .wait, .event 0 hupEv, .cont 0, .enable .rd true, .wait, .event 0 hupEv, .cont 0, .cont 0] {}).any (fun s =>
    decide (s.tr = [.ret 0, .start 0, .set 0 true]) && s.armed && s.added) = true := by
  decide +kernel

/-- **C83 is false**: a descriptor hangs up while nothing is enabled, and is taken out of the epoll set.  Then writing is enabled:
the descriptor stays out, and the write handler is never called, although a write would return at once. -/
theorem C83_write_violated : ∃ s, Clean s ∧ (s.cur = some 0 ∧ s.wr = true ∧ s.added = false ∧ s.th = []) ∧
    (∀ d s', exec (.enable .wr d) s = some s' → s'.added = false) ∧ ∀ i e, ¬ En s (.event i e) := by
  obtain ⟨s, h1, h2⟩ := clean_of [.set true, .wait, .event 0 hupEv, .cont 0, .enable .wr true] (P := fun s => s.cur = some 0 && s.wr &&
    !s.added && s.th.isEmpty && s.saved && !s.rd && !s.ex) (by decide +kernel)
  simp only [Bool.and_eq_true, decide_eq_true_eq, Bool.not_eq_true', List.isEmpty_iff] at h2
  obtain ⟨⟨⟨⟨⟨⟨a1, a2⟩, a3⟩, a4⟩, a5⟩, a6⟩, a7⟩ := h2
  refine ⟨s, h1, ⟨a1, a2, a3, a4⟩, fun d s' e => ?_, fun i e hn => ?_⟩
  · simp only [exec, enable, a1, reduceCtorEq, if_false] at e
    split at e
    · cases e; exact a3
    · simp [updateFd, St.setEn, a5, a6, a7] at e; subst e; exact a3
  · obtain ⟨_, _, _, _, c, hc⟩ := hn
    simp [a4] at hc

/-- The same with reading enabled: after a hang up writing is enabled too, but only reading is reported (:478-481). -/
theorem C83_write2_violated : ∃ s, Clean s ∧ (decide (s.cur = some 0) && s.rd && s.wr && s.armed && !s.mWr && s.th.isEmpty) = true :=
  clean_of [.set true, .enable .wr true, .wait, .event 0 hupEv, .cont 0, .enable .rd true] (by decide +kernel)

/-- **C83 is false**: handlers are replaced after the descriptor has hung up: `saved_events` is forgotten (:646) and the
descriptor is changed in the epoll set, where it is not; the assertion (:495) fails. -/
theorem C83_assert_violated : ∃ s, Clean s ∧ (s.th = [] ∧ s.cur = some 0) ∧ ∀ d, exec (.set d) s = none := by
  obtain ⟨s, h1, h2⟩ := clean_of [.set true, .wait, .event 0 hupEv, .cont 0] (P := fun s => s.cur = some 0 && s.th.isEmpty &&
    !s.added) (by decide +kernel)
  simp only [Bool.and_eq_true, decide_eq_true_eq, Bool.not_eq_true', List.isEmpty_iff] at h2
  refine ⟨s, h1, ⟨h2.1.2, h2.1.1⟩, fun d => ?_⟩
  simp [exec, set, h2.1.1, updateFd, ctl, St.upd, h2.2]

/-- The same after a registration was lost as in `C80_lost_violated`: handlers that are set again are added twice. -/
theorem C83_again_violated : ∃ s, Reach s ∧ (s.th = [] ∧ s.cur = none) ∧ ∀ d, exec (.set d) s = none := by
  obtain ⟨s, h1, h2⟩ := reach_of (reading ++ [.clear true, .set true, .cont 0, .cont 0]) (P := fun s => s.cur = none && s.th.isEmpty &&
    s.added && !s.saved) (by decide +kernel)
  simp only [Bool.and_eq_true, decide_eq_true_eq, Bool.not_eq_true', List.isEmpty_iff] at h2
  refine ⟨s, h1, ⟨h2.1.1.2, h2.1.1.1⟩, fun d => ?_⟩
  simp [exec, set, h2.1.1.1, updateFd, ctl, St.upd, h2.1.2, h2.2]

end Gensio.SelFd
