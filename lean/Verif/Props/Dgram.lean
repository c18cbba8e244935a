import Verif.Lemmas.DgramStuck
import Verif.Model.DgramData

/-! Properties C125 to C135: datagram gensios. -/
set_option linter.unusedSimpArgs false
namespace Gensio.Dgram
open Gensio.DgramData

/-! ## C125: the data of a datagram -/

/-- C125 violated: a user that takes part of a datagram is given its beginning again, and never its end. -/
theorem C125_datagram_again_violated (data : List UInt8) (n k : Nat) (hn : n ≤ 2) (hl : k < data.length) (a : Ans) :
    (calls data n [⟨k, true⟩, { a with again := false }]).map (·.map (·.data)) = some [data, data.take (data.length - k)] := by
  simp [calls, finishRead, hl, show ¬ n > 4 by omega, show ¬ n + n > 4 by omega]

/-- C125 violated: a user that takes two bytes at a time takes the first two bytes twice. -/
theorem C125_datagram_content_violated :
    ¬ ∀ (data : List UInt8) (as : List Ans) (cs : List Call), calls data 1 as = some cs → taken cs as <+: data := by
  intro h
  have := h [1, 2, 3, 4] [⟨2, true⟩, ⟨2, true⟩] [⟨[1, 2, 3, 4], 1⟩, ⟨[1, 2], 2⟩] (by decide +kernel)
  revert this; decide +kernel

/-- C125 violated: the fifth callback for one datagram writes after the end of `auxmem`; with the extra information, the second. -/
theorem C125_aux_overflow_violated :
    calls [1, 2, 3, 4, 5, 6] 1 (List.replicate 5 ⟨1, true⟩) = none ∧ calls [1, 2, 3, 4, 5, 6] 3 (List.replicate 2 ⟨1, true⟩) = none := by
  decide +kernel

theorem finishRead_aux {data : List UInt8} {n pend auxi : Nat} {as : List Ans} {cs : List Call} (e : finishRead data n pend auxi as = some cs) :
    ∀ c ∈ cs, c.aux ≤ 4 ∧ ∃ p, p ≤ pend ∧ c.data = data.take p := by
  induction as generalizing pend auxi cs with
  | nil => cases e; simp
  | cons a as ih =>
    rw [finishRead] at e
    split at e
    · cases e
    · dsimp only at e
      split at e
      · cases hr : finishRead data n (pend - a.count) (auxi + n) as with
        | none => rw [hr] at e; cases e
        | some cs' =>
          rw [hr] at e; cases e
          intro c hc
          rcases List.mem_cons.mp hc with rfl | hc
          · exact ⟨by dsimp only; omega, pend, Nat.le_refl _, rfl⟩
          · obtain ⟨h1, p, hp, hd⟩ := ih hr c hc
            exact ⟨h1, p, by omega, hd⟩
      · cases e
        intro c hc
        simp only [List.mem_singleton] at hc
        subst hc
        exact ⟨by dsimp only; omega, pend, Nat.le_refl _, rfl⟩

/-- C125: nothing but bytes from the beginning of the datagram is ever given to the user, and a user that takes all at once gets exactly the
datagram, in one call.  Missing: a user that takes a part. -/
theorem C125_datagram_partial :
    (∀ (data : List UInt8) (n : Nat) (as : List Ans) (cs : List Call), calls data n as = some cs → ∀ c ∈ cs, c.aux ≤ 4 ∧ c.data <+: data) ∧
    ∀ (data : List UInt8) (n : Nat) (a : Ans) (as : List Ans), n ≤ 3 → data.length ≤ a.count →
      calls data n (a :: as) = some [⟨data, n⟩] ∧ taken [⟨data, n⟩] (a :: as) = data := by
  constructor
  · intro data n as cs e c hc
    obtain ⟨h1, p, _, hd⟩ := finishRead_aux e c hc
    exact ⟨h1, hd ▸ List.take_prefix _ _⟩
  · intro data n a as hn ha
    constructor
    · simp [calls, finishRead, show ¬ n > 4 by omega, show ¬ a.count < data.length by omega]
    · simp [taken, List.take_of_length_le ha]

example : calls [7, 8, 9] 1 [⟨3, true⟩] = some [⟨[7, 8, 9], 1⟩] := by decide +kernel
example : calls [7, 8, 9] 1 [⟨1, true⟩, ⟨1, true⟩, ⟨1, true⟩] = some [⟨[7, 8, 9], 1⟩, ⟨[7, 8], 2⟩, ⟨[7], 3⟩] := by decide +kernel

/-! ## Runs -/

/-- No restriction. -/
def any : U → Op → Prop := fun _ _ => True

/-- One socket and one with two. -/
def g1 : Cfg := ⟨1, false⟩
def g2 : Cfg := ⟨2, false⟩

theorem Reach.mono {g : Cfg} {P Q : U → Op → Prop} {s : U} (h : Reach g P s) (hPQ : ∀ s op, P s op → Q s op) : Reach g Q s := by
  induction h with
  | acc => exact .acc
  | client a => exact .client a
  | step op _ hc hp e ih => exact .step op ih hc (hPQ _ _ hp) e

/-- A list of steps gives a reachable state. -/
theorem exec_reach {g : Cfg} {s t : U} {ops : List Op} (h : Reach g any s) (e : exec g s ops = .ok t) : Reach g any t := by
  induction ops generalizing s with
  | nil => cases e; exact h
  | cons op ops ih =>
    rw [exec] at e
    split at e
    · rename_i hc
      cases hs : Dgram.step g s op with
      | none => rw [hs] at e; cases e
      | some u => rw [hs] at e; exact ih (.step op h hc trivial hs) e
    · cases e

/-- A list of steps that ends in a fault. -/
theorem exec_fault {g : Cfg} {s : U} {ops : List Op} (h : Reach g any s) (e : exec g s ops = .fault) :
    ∃ t op, Reach g any t ∧ can t op = true ∧ Dgram.step g t op = none := by
  induction ops generalizing s with
  | nil => cases e
  | cons op ops ih =>
    rw [exec] at e
    split at e
    · rename_i hc
      cases hs : Dgram.step g s op with
      | none => exact ⟨s, op, h, hc, hs⟩
      | some u => rw [hs] at e; exact ih (.step op h hc trivial hs) e
    · cases e

/-- The state after some steps. -/
def after (g : Cfg) (s : U) (ops : List Op) : U := match exec g s ops with | .ok t => t | _ => s

theorem after_reach {g : Cfg} {s : U} {ops : List Op} (h : Reach g any s) : Reach g any (after g s ops) := by
  unfold after
  cases e : exec g s ops with
  | fault => exact h
  | cannot => exact h
  | ok t => exact exec_reach h e

/-! ## C126: no faults -/

/-- C126 violated: disabling or closing after a write enable that came while opening fails an assertion; so does a close there. -/
theorem C126_write_enable_violated :
    exec g1 (initClient 7) [.opn 0 (some 1), .setWrite 0 true, .cdop 0, .cont 0 false 0, .setWrite 0 false] = .fault ∧
    exec g1 (initClient 7) [.opn 0 (some 1), .setWrite 0 true, .close 0 none] = .fault := by
  decide +kernel

/-- C126 violated: a client opened from its close callback and freed is used after it was freed. -/
theorem C126_reopen_violated :
    exec g1 (initClient 7) [.opn 0 none, .cdop 0, .close 0 (some 1), .cdop 0, .opn 0 none, .free 0, .cdop 0, .cont 0 false 0] = .fault := by
  decide +kernel

/-- C126 violated: a connection that is freed while an enable callback runs in the read handler is used after it was freed. -/
theorem C126_enable_callback_violated :
    exec g1 initAcc [.startup, .rx false 7 5, .setEnable true (some 5), .cont 0 false 0, .free 0, .cdop 0, .cont 0 false 0] = .fault := by
  decide +kernel

/-- C126 violated, all of them: there are faults. -/
theorem C126_no_fault_violated : ¬ ∀ (g : Cfg) (s : U) (op : Op), Reach g any s → can s op = true → Dgram.step g s op ≠ none := by
  intro h
  obtain ⟨t, op, h1, h2, h3⟩ := exec_fault (Reach.client 7) C126_write_enable_violated.2
  exact h _ _ _ h1 h2 h3

/-- C126: no step is a failed assertion or a use of freed memory, in runs in which clients are not opened from their close callback, writing is not
changed while opening, no enable callback is awaited when the callback for a new connection returns, and, with several sockets, no datagram comes while a
read callback of an open connection runs with no data pending.  Missing: the other runs. -/
theorem C126_no_fault_partial {g : Cfg} {s : U} {op : Op} (h : Reach g Calm s) (hcan : can s op = true) (hc : Calm s op) :
    ∃ t, Dgram.step g s op = some t := by
  have hJ : J g.nocon False none s := J.reach (fun _ _ hp => ⟨hp, False.elim⟩) h
  obtain ⟨t, e, _⟩ := hJ.step rfl (I.reach h) hcan hc False.elim
  exact ⟨t, e⟩

example : (match exec g1 initAcc [.startup, .rx false 7 10, .setRead 0 true, .cont 0 false 0, .cont 0 false 10, .close 0 (some 1), .cdop 0, .cont 0 false 0] with
    | .ok s => s.log = [.new 0 7, .read 0 7, .close 0 1, .closed 0 1] | _ => false) = true := by decide +kernel

/-! ## C127: release -/

/-- C127, in all runs (missing: that nothing is lost): the references are the ones that are held: one until the accepter is finished, one for each socket being closed, one for each
thread in a callback, one for each runner; `lost` counts the ones that are lost.  The memory is freed exactly when there is none left. -/
theorem C127_references_partial {g : Cfg} {s : U} (h : Reach g any s) :
    s.ref = (if s.finished then 0 else 1) + s.clearing + s.ths.length + s.cs.countP (·.dop) + (if s.dop then 1 else 0) + (if s.enRun then 1 else 0) + s.lost ∧
    (s.gone = true ↔ s.ref = 0) ∧ s.cnt = s.cs.countP (!·.gone) := by
  have hI := I.reach h
  refine ⟨?_, hI.gone, hI.cnt⟩
  have := hI.ref
  rw [this]
  cases s.finished <;> cases s.dop <;> cases s.enRun <;> simp <;> omega

/-- C127 violated: a reference is lost when the accepter is enabled again before the runner for the first enable has run; the accepter is never freed. -/
theorem C127_lost_reference_violated :
    (match exec g1 initAcc [.startup, .setEnable false none, .setEnable true none, .enOp, .accFree, .cleared] with
      | .ok s => s.finished && s.ths.isEmpty && s.clearing = 0 && !s.dop && !s.enRun && s.cs.isEmpty && !s.gone && s.ref = 1 | _ => false) = true := by
  decide +kernel

/-- C127 violated: a connection made by `str_to_gensio` that is freed while its accepter has a deferred operation is never freed. -/
theorem C127_lost_connection_violated :
    (match exec g1 initAcc [.startup, .strTo 7, .free 0, .shutdown (some 1), .cdop 0, .adop, .cont 0 false 0, .accFree] with
      | .ok s => s.ths.isEmpty && !s.dop && s.cs.all (fun c => c.freed && !c.dop && !c.gone && c.st = .closed) && s.cnt = 1 && !s.gone | _ => false) = true := by
  decide +kernel

/-- C127: a finished accepter with nothing running, nothing to run and no socket being closed is freed.  Missing: accepters that were enabled again before
the runner for the first enable has run (`lost`), and that an accepter is finished. -/
theorem C127_released_partial {g : Cfg} {s : U} (h : Reach g any s) (hl : s.lost = 0) (hf : s.finished = true) (hc : s.clearing = 0) (ht : s.ths = [])
    (hd : ∀ c ∈ s.cs, c.dop = false) (hd' : s.dop = false) (he : s.enRun = false) : s.gone = true := by
  obtain ⟨h1, h2, _⟩ := C127_references_partial h
  have h0 : s.cs.countP (·.dop) = 0 := List.countP_eq_zero.mpr (fun c hm => by simp [hd c hm])
  refine h2.mpr ?_
  rw [h1, hl, hf, hc, ht, hd', he, h0]; rfl

example : (match exec g1 initAcc [.startup, .rx false 7 5, .cont 0 false 0, .free 0, .cdop 0, .shutdown (some 1), .adop, .cont 0 false 0, .accFree, .cleared] with
    | .ok s => s.gone | _ => false) = true := by decide +kernel

/-! ## C128: reading -/

/-- C128, in all runs (missing: that `extra` goes back to 0): the read disable count is the number of open connections with reading disabled and one if the read handler has stopped reading. -/
theorem C128_read_count_partial {g : Cfg} {s : U} (h : Reach g any s) :
    ∃ extra, s.rdCnt = s.cs.countP (fun c => (c.st = .inOpen || c.st = .opened) && !c.rd) + extra ∧ (s.rhDis = true → extra ≠ 0) := by
  have hI := I.reach h
  refine ⟨s.extra, ?_, hI.rh⟩
  rw [hI.rdc]
  congr 2
  funext c
  cases hs : c.st <;> simp [C.mute, C.up, hs]

/-- The state in which reading is stopped for ever. -/
def stuck : U := after g1 initAcc [.startup, .rx false 7 10, .cont 0 false 0, .rx false 7 5, .setRead 0 true, .adop, .cont 0 false 10]

/-- C128 violated: a datagram that comes while another one waits for its connection stops reading for ever.  The connection is open with reading
enabled and no data waits, but whatever happens next (other than a new start), no datagram is ever received again. -/
theorem C128_read_stuck_violated :
    Reach g1 any stuck ∧ stuck.ths = [] ∧ stuck.pend = 0 ∧ (∃ c, stuck.cs = [c] ∧ c.st = .opened ∧ c.rd = true) ∧
    ∀ (ops : List Op) (t : U), exec g1 stuck ops = .ok t → (∀ op ∈ ops, op ≠ .startup ∧ ∀ a len, op ≠ .rx true a len) →
      t.armed = false ∧ ∀ a len, can t (.rx false a len) = false := by
  have hr : Reach g1 any stuck := after_reach .acc
  have hK : K stuck := by unfold K; decide +kernel
  refine ⟨hr, by decide +kernel, by decide +kernel, ?_, ?_⟩
  · exact ⟨stuck.cs.head (by decide +kernel), by decide +kernel, by decide +kernel, by decide +kernel⟩
  · intro ops t e hops
    have key : ∀ (s : U), I 0 s → K s → exec g1 s ops = .ok t → K t := by
      clear e hK hr
      induction ops with
      | nil => intro s _ hk e; cases e; exact hk
      | cons op ops ih =>
        intro s hI hk e
        rw [exec] at e
        split at e
        · rename_i hc
          cases hs : Dgram.step g1 s op with
          | none => rw [hs] at e; cases e
          | some u =>
            rw [hs] at e
            have ho := hops op (by simp)
            exact ih (fun o hm => hops o (by simp [hm])) u (hI.step hc hs) (hk.step hI hc hs ho.1 ho.2) e
        · cases e
    have hk := key stuck (I.reach hr) hK e
    exact ⟨hk.2.2.1, fun a len => by simp [can, hk.2.2.1]⟩

example : stuck.log = [.new 0 7, .read 0 7] := by decide +kernel

/-! ## C129: closes -/

/-- C129, in all runs: the callback of each close is called at most once, and for a connection that is not freed the calls and the one that is awaited are
as many as the closes that were accepted; a callback is awaited only while closing. -/
theorem C129_close_once_partial {g : Cfg} {s : U} (h : Reach g any s) (i id : Nat) :
    s.log.count (.closed i id) ≤ s.log.count (.close i id) ∧
    ∀ c, s.cs[i]? = some c → (c.freed = false → c.st ≠ .inClose → s.log.count (.closed i id) = s.log.count (.close i id)) := by
  have hL := L.reach h
  refine ⟨Nat.le_trans (Nat.le_add_right _ _) (hL.cl i id).1, ?_⟩
  intro c hc hf hst
  have h1 := (hL.cl i id).2 (fun d hd => by rw [hc] at hd; cases hd; exact hf)
  have h2 : c.closeDone = none := by
    cases hx : c.closeDone with
    | none => rfl
    | some id' => exact absurd (hL.cd i c hc (by simp [hx])) hst
  rw [cdn, hc] at h1
  simpa [h2] using h1

/-- C129 violated: a connection closed in a read callback that was deferred is never closed. -/
theorem C129_lost_close_violated :
    (match exec g1 initAcc [.startup, .rx false 7 10, .cont 0 false 0, .setRead 0 true, .adop, .close 0 (some 1), .cdop 0, .cont 0 false 10] with
      | .ok s => s.ths.isEmpty && !s.dop && s.cs.all (fun c => c.st = .inClose && !c.dop) && s.log = [.new 0 7, .read 0 7, .close 0 1] | _ => false) = true := by
  decide +kernel

/-- C129 violated: so is one closed in the shutdown callback that comes from the read handler. -/
theorem C129_lost_close_shutdown_violated :
    (match exec g1 initAcc [.startup, .rx false 7 10, .setRead 0 true, .shutdown (some 3), .cont 0 false 0, .cont 0 false 10, .close 0 (some 1), .cdop 0, .cont 0 false 0] with
      | .ok s => s.ths.isEmpty && !s.dop && s.cs.all (fun c => c.st = .inClose && !c.dop) && s.log.count (.closed 0 1) = 0 | _ => false) = true := by
  decide +kernel

/-- C129: with nothing running and nothing to run, no connection is left closing, and each close of a connection that is not freed was reported exactly
once, if no connection is closing when a deferred read callback or a shutdown callback of the read handler returns.  Missing: those, and the runs of C126. -/
theorem C129_close_done_partial {g : Cfg} {s : U} (h : Reach g (fun s op => Calm s op ∧ Prompt s op) s) (hq : s.ths = []) (hd : ∀ c ∈ s.cs, c.dop = false) :
    ∀ (i : Nat) (c : C), s.cs[i]? = some c → c.st ≠ .inClose ∧
      (c.freed = false → ∀ id, s.log.count (.closed i id) = s.log.count (.close i id)) := by
  intro i c hc
  have hJ : J g.nocon True none s := J.reach (fun _ _ hp => ⟨hp.1, fun _ => hp.2⟩) h
  have hst : c.st ≠ .inClose := by
    intro hx
    obtain ⟨hQ, hCL⟩ := hJ.q i c hc (by simp)
    have hdop := hd c (List.mem_of_getElem? hc)
    have h1 := hQ.rdn
    have h2 := hQ.wrn
    have h3 := hQ.opn
    rw [hq] at h1 h2 h3
    have hup : c.up = false := by simp [C.up, hx]
    rcases hCL trivial hx with x | x | x | x
    · rw [hdop] at x; cases x
    · cases hdr : c.defRead
      · rw [x, hdr] at h1; simp at h1
      · have := hQ.dru hdr; rw [hup] at this; cases this
    · rw [x] at h2; simp at h2
    · rw [x] at h3; simp at h3
  refine ⟨hst, fun hf id => (C129_close_once_partial (h.mono (fun _ _ _ => trivial)) i id).2 c hc hf hst⟩

example : (match exec g1 initAcc [.startup, .rx false 7 10, .setRead 0 true, .cont 0 false 0, .close 0 (some 1), .cdop 0, .cont 0 false 10, .cont 0 false 0] with
    | .ok s => s.ths.isEmpty && s.log = [.new 0 7, .read 0 7, .close 0 1, .closed 0 1] | _ => false) = true := by decide +kernel

/-! ## C130: who gets a datagram -/

/-- C130 violated: with two sockets a connection is given a datagram from the address of another one. -/
theorem C130_misdelivery_violated :
    (match exec g2 initAcc [.startup, .rx false 10 5, .close 0 none, .rx false 11 5, .setRead 1 true, .cont 1 false 0, .rx false 12 5, .cont 1 false 0] with
      | .ok s => (s.cs[1]?.map (·.addr)) = some 11 && s.log.contains (.read 1 12) | _ => false) = true := by
  decide +kernel

/-- C130: a read callback of a connection is made only for a datagram from its address, unless the gensio is not to have connections.
Missing: the runs of C126. -/
theorem C130_delivery_partial {g : Cfg} {s : U} (h : Reach g Calm s) (hn : g.nocon = false) (i a : Nat) (hm : Ev.read i a ∈ s.log) :
    ∃ c, s.cs[i]? = some c ∧ c.addr = a := by
  have hJ : J g.nocon False none s := J.reach (fun _ _ hp => ⟨hp, False.elim⟩) h
  exact hJ.lg hn i a hm

example : (match exec g1 initAcc [.startup, .rx false 7 5, .setRead 0 true, .cont 0 false 0, .cont 0 false 5, .rx false 8 5, .setRead 1 true, .cont 0 false 0, .cont 0 false 5, .rx false 7 3, .cont 0 false 3] with
    | .ok s => s.log = [.new 0 7, .read 0 7, .new 1 8, .read 1 8, .read 0 7] | _ => false) = true := by decide +kernel

/-! ## C131: a shutdown is final -/

/-- C131: after a shutdown no connection is told of, whatever happens.  Missing: a new start. -/
theorem C131_closed_partial {g : Cfg} {s t : U} {ops : List Op} (hc : s.closed = true) (e : exec g s ops = .ok t) :
    t.closed = true ∧ t.log.countP Ev.isNew = s.log.countP Ev.isNew :=
  exec_inv (A := D (s.log.countP Ev.isNew)) (fun _ _ _ h _ e => h.step e) ⟨hc, rfl⟩ e

/-- C131 violated: so a start after a shutdown succeeds, opens and arms the sockets, and takes no connection, in any continuation. -/
theorem C131_restart_violated :
    (match exec g1 initAcc [.startup, .shutdown (some 1), .adop, .cont 0 false 0, .startup] with
      | .ok s => s.armed && s.enabled && !s.inShut && s.ths.isEmpty && can s (.rx false 7 5) | _ => false) = true ∧
    ∀ (ops : List Op) (t : U), exec g1 (after g1 initAcc [.startup, .shutdown (some 1), .adop, .cont 0 false 0, .startup]) ops = .ok t → t.log.countP Ev.isNew = 0 := by
  constructor
  · decide +kernel
  · intro ops t e
    have h := (C131_closed_partial (by decide +kernel) e).2
    rw [h]; decide +kernel

example : (match exec g1 initAcc [.startup, .rx false 7 5] with | .ok s => s.log.countP Ev.isNew = 1 | _ => false) = true := by decide +kernel

/-! ## C132: controls -/

/-- C132 violated: `MCAST_LOOP` is set to the opposite, and no string is invalid. -/
theorem C132_mcast_loop_violated :
    setLoop "true".toList 4 = some false ∧ setLoop "false".toList 5 = some true ∧ ∀ data len, len ≠ 0 → setLoop data len ≠ none := by
  refine ⟨by decide +kernel, by decide +kernel, ?_⟩
  intro data len hl
  unfold setLoop
  split
  · simp
  · rename_i h1
    split
    · simp
    · rename_i h2
      exfalso
      cases len with
      | zero => exact hl rfl
      | succ n =>
        cases data with
        | nil => simp [ncaseEq] at h1
        | cons a as =>
          simp [ncaseEq] at h1 h2
          have := h1.1.symm.trans h2.1
          revert this; decide +kernel

/-- C132 violated: asking for `MCAST_TTL` sets the value of the socket to one that was never given, and prints that. -/
theorem C132_mcast_ttl_violated : ∀ v sock junk, junk ≠ v → (getTtl junk (setTtl v sock)).1 ≠ v ∧ (getTtl junk (setTtl v sock)).2 ≠ v := by
  intro v sock junk h
  exact ⟨h, h⟩

/-- C132 violated: with the extra information on for one connection, turning it on for another one succeeds and does nothing; an error of the socket
leaves the lock held. -/
theorem C132_extrainfo_violated :
    setExtra ⟨[true, false], 1, true, false⟩ 1 true false = (⟨[true, false], 1, true, false⟩, true) ∧
    ∀ on sock, (setExtra ⟨false :: on, 0, sock, false⟩ 0 true true).1.locked = true := by
  constructor
  · decide +kernel
  · intro on sock; simp [setExtra]

/-- C132 violated: a string without a port is taken for UDP, and one with arguments if it has a port. -/
theorem C132_str_to_gensio_violated : strOk true false false = true ∧ strOk true true true = true := by decide +kernel

/-- The count of the extra information. -/
theorem setExtra_inv {s : X} {i : Nat} {val fail : Bool} (hi : i < s.on.length) (h : s.cnt = s.on.countP id ∧ s.cnt ≤ 1 ∧ s.sock = decide (s.cnt = 1)) :
    (setExtra s i val fail).1.cnt = (setExtra s i val fail).1.on.countP id ∧ (setExtra s i val fail).1.cnt ≤ 1 ∧
    (setExtra s i val fail).1.sock = decide ((setExtra s i val fail).1.cnt = 1) ∧ (setExtra s i val fail).1.on.length = s.on.length := by
  obtain ⟨h1, h2, h3⟩ := h
  unfold setExtra
  have hg : s.on[i]? = some s.on[i] := List.getElem?_eq_getElem hi
  rw [hg]
  split
  · rename_i hne
    split
    · rename_i hc
      split
      · exact ⟨h1, h2, h3, rfl⟩
      · have hcount := countP_set' (p := id) (c' := val) hg
        cases val
        · have hv : s.on[i] = true := by simpa using hne
          have hone : s.cnt = 1 := by simpa using hc
          rw [hv] at hcount
          simp at hcount ⊢
          omega
        · have hv : s.on[i] = false := by simpa using hne
          have hzero : s.cnt = 0 := by simpa using hc
          rw [hv] at hcount
          simp at hcount ⊢
          omega
    · exact ⟨h1, h2, h3, rfl⟩
  · exact ⟨h1, h2, h3, rfl⟩

/-- C132: the count of the extra information is the number of connections that have it, which is at most one, and the socket has it exactly then, after any
sets.  A set turns it off when asked to, and on if no other connection has it.  Missing: the others. -/
theorem C132_extrainfo_partial :
    (∀ (n : Nat) (l : List (Nat × Bool × Bool)), (∀ p ∈ l, p.1 < n) →
      let s := setExtras ⟨List.replicate n false, 0, false, false⟩ l
      s.cnt = s.on.countP id ∧ s.cnt ≤ 1 ∧ s.sock = decide (s.cnt = 1)) ∧
    ∀ (s : X) (i : Nat), i < s.on.length → s.cnt = s.on.countP id → (s.on.countP id ≤ 1 → (setExtra s i false false).1.on[i]? = some false) ∧
      (s.on.countP id = 0 → (setExtra s i true false).1.on[i]? = some true) := by
  constructor
  · intro n l hl
    have key : ∀ s : X, s.on.length = n → (s.cnt = s.on.countP id ∧ s.cnt ≤ 1 ∧ s.sock = decide (s.cnt = 1)) →
        ((setExtras s l).cnt = (setExtras s l).on.countP id ∧ (setExtras s l).cnt ≤ 1 ∧ (setExtras s l).sock = decide ((setExtras s l).cnt = 1)) := by
      induction l with
      | nil => intro s _ h; exact h
      | cons p l ih =>
        obtain ⟨i, v, f⟩ := p
        intro s hn h
        have hi : i < s.on.length := by rw [hn]; exact hl (i, v, f) (by simp)
        obtain ⟨a, b, c, d⟩ := setExtra_inv (val := v) (fail := f) hi h
        exact ih (fun p hp => hl p (by simp [hp])) _ (by rw [d]; exact hn) ⟨a, b, c⟩
    refine key _ (by simp) ?_
    simp [List.countP_replicate]
  · intro s i hi hc
    have hg : s.on[i]? = some s.on[i] := List.getElem?_eq_getElem hi
    constructor
    · intro h1
      unfold setExtra
      rw [hg]
      cases hv : s.on[i]
      · simp [hg, hv]
      · have : 0 < s.on.countP id := List.countP_pos_iff.mpr ⟨true, by rw [← hv]; exact List.getElem_mem hi, rfl⟩
        have : s.cnt = 1 := by omega
        simp [this, hi]
    · intro h0
      unfold setExtra
      rw [hg]
      cases hv : s.on[i]
      · have : s.cnt = 0 := by omega
        simp [this, hi]
      · have : 0 < s.on.countP id := List.countP_pos_iff.mpr ⟨true, by rw [← hv]; exact List.getElem_mem hi, rfl⟩
        omega

example : (setExtras ⟨[false, false], 0, false, false⟩ [(0, true, false), (1, true, false), (0, false, false), (1, true, false)]) = ⟨[false, true], 1, true, false⟩ := by decide +kernel

/-! ## C133: writing -/

theorem exec_append {g : Cfg} {s t : U} {l m : List Op} (e : exec g s l = .ok t) : exec g s (l ++ m) = exec g t m := by
  induction l generalizing s with
  | nil => cases e; rfl
  | cons op l ih =>
    rw [exec] at e
    rw [List.cons_append, exec]
    split at e
    · rename_i hc
      rw [if_pos hc]
      cases hs : Dgram.step g s op with
      | none => rw [hs] at e; cases e
      | some u => rw [hs] at e; exact ih e
    · cases e

/-- Two connections that wait to write. -/
def both : U := after g1 initAcc [.startup, .rx false 7 5, .setRead 0 true, .cont 0 false 0, .cont 0 false 5, .rx false 8 5, .setRead 1 true, .cont 0 false 0, .cont 0 false 5,
  .setWrite 0 true, .setWrite 1 true]

/-- C133 violated: of two connections that wait to write, only the first is told that it may, again and again. -/
theorem C133_write_starvation_violated :
    (both.cs.map (·.wr) = [true, true] ∧ both.wrOn = true) ∧
    (match exec g1 both [.tx false] with | .ok t => t.ths = [.wr 0] | _ => false) = true ∧
    ∀ n, exec g1 both ((List.replicate n [Op.tx false, Op.cont 0 false 0]).flatten) = .ok both := by
  refine ⟨by decide +kernel, by decide +kernel, ?_⟩
  intro n
  induction n with
  | zero => rfl
  | succ n ih =>
    rw [List.replicate_succ, List.flatten_cons, exec_append (t := both) (by decide +kernel)]
    exact ih

/-- C133: the write enable count is the number of connections with writing enabled, so that the write handlers are asked for as long as there is one
and a disable never fails its assertion.  Missing: the runs of C126. -/
theorem C133_write_count_partial {g : Cfg} {s : U} (h : Reach g Calm s) : s.wrCnt = s.cs.countP (·.wr) := by
  have hJ : J g.nocon False none s := J.reach (fun _ _ hp => ⟨hp, False.elim⟩) h
  exact hJ.wrc

/-! ## C134: enables -/

/-- C134: the callback of each enable is called exactly once: the calls and the one awaited are as many as were accepted, and one that is awaited has a
runner to run or a read handler that will call it. -/
theorem C134_enable_once {g : Cfg} {s : U} (h : Reach g any s) :
    (∀ id, s.log.count (.enCb id) + (if s.enDone = some id then 1 else 0) = s.log.count (.en id)) ∧
    (s.enDone ≠ none → s.enRun = true ∨ ∃ i, T.new i ∈ s.ths ∨ T.newEn i ∈ s.ths) := by
  have hL := L.reach h
  constructor
  · intro id
    have := hL.en id
    by_cases hx : s.enDone = some id <;> simp [hx] at this ⊢ <;> exact this
  · intro hx
    rcases hL.er hx with y | y
    · exact .inl y
    · right
      obtain ⟨t, hm, ht⟩ := List.countP_pos_iff.mp (hL.nn rfl y)
      cases t <;> simp [T.isNew] at ht
      · exact ⟨_, .inl hm⟩
      · exact ⟨_, .inr hm⟩

/-! ## C135: opens and shutdowns -/

/-- C135, in all runs: the callbacks of shutdowns and opens are called at most once; those of shutdowns and the one that is awaited are as many as the
shutdowns that were accepted.  Missing: that they are called. -/
theorem C135_once_partial {g : Cfg} {s : U} (h : Reach g any s) :
    (∀ id, s.log.count (.shutCb id) + (if s.inShut = true ∧ s.shutDone = some id then 1 else 0) = s.log.count (.shut id)) ∧
    ∀ i id, s.log.count (.opened i id) ≤ s.log.count (.opn i id) := by
  have hL := L.reach h
  constructor
  · intro id
    have := hL.sh id
    by_cases h1 : s.inShut = true <;> by_cases h2 : s.shutDone = some id <;> simp [h1, h2] at this ⊢ <;> exact this
  · intro i id
    exact Nat.le_trans (Nat.le_add_right _ _) (hL.op i id)

/-- C135 violated: a shutdown in the callback for a new connection that is closed there is never done, and the accepter never freed. -/
theorem C135_lost_shutdown_violated :
    (match exec g1 initAcc [.startup, .rx false 7 5, .shutdown (some 3), .close 0 none, .cont 0 false 0, .cdop 0] with
      | .ok s => s.ths.isEmpty && s.inShut && !s.dop && !s.enRun && s.cs.all (fun c => !c.dop && c.st = .closed) && s.log.count (.shut 3) = 1 && s.log.count (.shutCb 3) = 0
      | _ => false) = true := by
  decide +kernel

/-- C135 violated: an open that is closed before it is done is never reported. -/
theorem C135_lost_open_violated :
    (match exec g1 (initClient 7) [.opn 0 (some 3), .close 0 none, .cdop 0] with
      | .ok s => s.ths.isEmpty && s.cs.all (fun c => !c.dop && c.st = .closed) && s.log = [.opn 0 3] | _ => false) = true := by
  decide +kernel

example : (match exec g1 initAcc [.startup, .setEnable false (some 2), .enOp, .cont 0 false 0, .shutdown (some 3), .adop, .cont 0 false 0] with
    | .ok s => s.log = [.en 2, .enCb 2, .shut 3, .shutCb 3] | _ => false) = true := by decide +kernel

end Gensio.Dgram
