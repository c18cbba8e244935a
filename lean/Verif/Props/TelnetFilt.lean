import Verif.Model.TelnetFilt
import Verif.Lemmas.Mem
import Verif.Props.Telnet
/-!
# The telnet filter with urgent data, errors and reopening: C141, C143, C145
-/
namespace Gensio.TelnetFilt
open Telnet (Rx WState)

/-! ### C141: a telnet synch throws away what is before the mark and nothing else -/

/-- Data received in pieces, the user taking all he is offered: what he got, the commands, and how many
bytes were consumed. -/
def recv (r : R) (m : Nat) : List (List UInt8) → Option (R × List UInt8 × List (List UInt8) × Nat)
  | [] => some (r, [], [], 0)
  | c :: cs => (r.llWrite m .plain c m).bind fun q => (recv q.r m cs).map fun p => (p.1, q.out ++ p.2.1, q.cmds ++ p.2.2.1, q.used + p.2.2.2)

theorem skip_none : ∀ (u : Nat) (d : List UInt8), u ≠ 2 → 255 ∉ d → skipUrgent u d = (u, [], false) := by
  intro u d hu
  induction d with
  | nil => intro _; rfl
  | cons b bs ih =>
    intro h
    simp at h
    rw [skipUrgent, if_neg hu, if_neg (fun h' => h.1 h'.symm), ih (by simpa using h.2)]

theorem skip_mark : ∀ (d post : List UInt8), 255 ∉ d → skipUrgent 1 (d ++ 255 :: 242 :: post) = (0, 242 :: post, true) := by
  intro d post
  induction d with
  | nil => intro _; rfl
  | cons b bs ih =>
    intro h
    simp at h
    rw [List.cons_append, skipUrgent, if_neg (by decide), if_neg (fun h' => h.1 h'.symm), ih (by simpa using h.2)]

theorem skip_iac : ∀ (d : List UInt8), 255 ∉ d → skipUrgent 1 (d ++ [255]) = (2, [], false) := by
  intro d
  induction d with
  | nil => intro _; rfl
  | cons b bs ih =>
    intro h
    simp at h
    rw [List.cons_append, skipUrgent, if_neg (by decide), if_neg (fun h' => h.1 h'.symm), ih (by simpa using h.2)]

/-- A piece received in urgent mode that has no mark. -/
theorem llWrite_skip {r : R} {m u : Nat} {c : List UInt8} (hu : r.urgent ≠ 0) (hd : r.rdata = [])
    (hs : skipUrgent r.urgent c = (u, [], false)) :
    r.llWrite m .plain c m = some ⟨{ r with urgent := u }, c.length, [], [], false⟩ := by
  have hst : r.start .plain = r := by unfold R.start; rw [if_neg (by decide)]
  unfold R.llWrite
  rw [if_neg (by decide)]
  simp only [hst, hd, ne_eq, not_true_eq_false, false_or]
  by_cases hc : c = []
  · subst hc
    rw [skipUrgent] at hs
    simp only [Prod.mk.injEq, and_true] at hs
    subst hs
    cases r; simp at hd; subst hd; simp
  · rw [if_neg hc, if_pos hu, hs]
    cases r; simp at hd; subst hd; simp [Telnet.processData]

/-- After the lower layer has announced urgent data, whatever was being received: everything before
the mark is consumed, in whatever pieces it comes, and gives the user no data and runs no command. -/
theorem C141_skipped_partial (m : Nat) : ∀ (cs : List (List UInt8)) (r : R), r.urgent = 1 → r.rdata = [] → 255 ∉ cs.flatten →
    recv r m cs = some (r, [], [], cs.flatten.length) ∧
    ∀ a post, 255 ∉ a → recv r m (cs ++ [a ++ [255]]) = some ({ r with urgent := 2 }, [], [], cs.flatten.length + a.length + 1) ∧
      ∃ q, r.llWrite m .plain (a ++ 255 :: 242 :: post) m = q.map (fun p : Telnet.RxRes =>
        ⟨⟨p.rx, 0, p.out.drop m⟩, a.length + 1 + p.used, p.out.take m, p.cmds, true⟩) ∧ q = Telnet.processData r.rx m (242 :: post) := by
  intro cs
  induction cs with
  | nil =>
    intro r hu hd _
    refine ⟨rfl, fun a post ha => ⟨?_, _, ?_, rfl⟩⟩
    · rw [List.nil_append, recv, llWrite_skip (by rw [hu]; decide) hd (by rw [hu]; exact skip_iac a ha)]
      simp [recv]
    · have hst : r.start .plain = r := by unfold R.start; rw [if_neg (by decide)]
      unfold R.llWrite
      rw [if_neg (by decide)]
      simp only [hst, hd, ne_eq, not_true_eq_false, false_or]
      rw [if_neg (by simp), if_pos (by rw [hu]; decide), hu, skip_mark a post ha]
      simp only [Option.map_map]
      congr 1
      funext p
      simp
      omega
  | cons c cs ih =>
    intro r hu hd h
    simp only [List.flatten_cons, List.mem_append, not_or] at h
    have hc := llWrite_skip (m := m) (by rw [hu]; decide) hd (by rw [hu]; exact skip_none 1 c (by decide) h.1)
    have he : ({ r with urgent := 1 } : R) = r := by cases r; simp at hu; subst hu; rfl
    rw [he] at hc
    obtain ⟨i1, i2⟩ := ih r hu hd h.2
    refine ⟨?_, fun a post ha => ⟨?_, (i2 a post ha).2⟩⟩
    · rw [recv, hc, Option.bind_some, i1]; simp
    · rw [List.cons_append, recv, hc, Option.bind_some, (i2 a post ha).1]; simp; omega

/-- The announcement of urgent data ends the command that was being received, whatever the rest of it would have been: nothing of
it is run, and what comes after the mark is not taken for a part of it. -/
theorem C141_abandoned_partial (r : R) (m u : Nat) (b : UInt8) (hb : b ≠ 255) (hm : r.rx.pos = 1 → b ≠ DM) (hd : r.rdata = []) :
    r.llWrite m .oobtcp [b] u = some ⟨{ r with urgent := 1, rx := { r.rx with pos := 0 } }, 1, [], [], false⟩ := by
  unfold R.llWrite
  rw [if_neg (by decide)]
  have hst : r.start .oobtcp = { r with urgent := if r.rx.pos = 1 then 2 else 1, rx := { r.rx with pos := 0 } } := rfl
  simp only [hst, hd, ne_eq, not_true_eq_false, false_or]
  by_cases hp : r.rx.pos = 1
  · have := hm hp
    cases r; simp at hd; subst hd
    simp_all [skipUrgent, Telnet.processData]
  · cases r; simp at hd; subst hd
    simp_all [skipUrgent, Telnet.processData]

/-- Urgent data is announced in the middle of a command: "ab" and the start of an option are forgotten. -/
example : (match (R.init.llWrite 100 .plain [255, 250, 44, 1] 100).bind fun q => (q.r.llWrite 100 .oobtcp [7] 100).bind fun q =>
      (q.r.llWrite 100 .plain [97, 98, 255, 1, 99] 100) with
    | some q => q.out = [] ∧ q.cmds = [] ∧ q.r.urgent = 1 | none => false) = true := by decide +kernel

/-- The mark is not data, but when it is found it is left in the buffer without its IAC and the user
reads it: his first byte after any synch is 0xF2. -/
theorem C141_mark_violated (r : R) (m : Nat) (hm : 0 < m) (a post : List UInt8) (ha : 255 ∉ a) (hu : r.urgent = 1) (hd : r.rdata = [])
    (hp : r.rx.pos = 0) (q : RRes) (e : r.llWrite m .plain (a ++ 255 :: 242 :: post) m = some q) : q.out.head? = some 242 := by
  obtain ⟨_, h⟩ := C141_skipped_partial m [] r hu hd (by simp)
  obtain ⟨_, p, h1, h2⟩ := h a post ha
  rw [h1, h2] at e
  rw [Telnet.processData, if_neg (by omega)] at e
  have hb : Telnet.rxByte r.rx 242 = some { rx := r.rx, data := [242] } := by
    unfold Telnet.rxByte
    rw [if_neg (by simp [hp]), if_neg (by decide)]
  rw [hb] at e
  simp only [Option.bind_eq_bind, Option.bind_some] at e
  cases hq : Telnet.processData r.rx (m - [(242 : UInt8)].length) post with
  | none => rw [hq] at e; simp at e
  | some x =>
    rw [hq] at e
    simp only [Option.bind_some, Option.map_some, Option.some.injEq] at e
    subst e
    cases m with
    | zero => omega
    | succ m => simp

/-- The TCP gensio takes the urgent byte, which is the mark, out of the stream and hands it over by
itself.  If that is before the IAC has been read the mark is taken for data to skip, the IAC in the
stream is followed by data, and everything the peer sends from then on is thrown away, as long as it has
no IAC in it. -/
theorem C141_mark_missed_violated (m : Nat) (before x : List UInt8) (cs : List (List UInt8)) (h1 : 255 ∉ before) (h2 : 255 ∉ x)
    (hx : x ≠ []) (h3 : 255 ∉ cs.flatten) (h4 : 242 ∉ x) :
    ∃ r, (R.init.llWrite m .oobtcp [242] m) = some ⟨r, 1, [], [], false⟩ ∧
      ∃ r', recv r m ([before ++ [255], x] ++ cs) = some (r', [], [], (before ++ [255] ++ x ++ cs.flatten).length) ∧ r'.urgent = 1 := by
  refine ⟨⟨Rx.init, 1, []⟩, by simp [R.llWrite, R.start, R.init, Rx.init, skipUrgent, Telnet.processData], ?_⟩
  have hr1 := llWrite_skip (r := ⟨Rx.init, 1, []⟩) (m := m) (c := before ++ [255]) (u := 2) (by decide) rfl (skip_iac before h1)
  have hsk : skipUrgent 2 x = (1, [], false) := by
    cases x with
    | nil => exact absurd rfl hx
    | cons b bs =>
      simp at h2 h4
      rw [skipUrgent, if_pos rfl, if_neg (fun h => h4.1 h.symm), skip_none 1 bs (by decide) (by simpa using h2.2)]
  have hr2 := llWrite_skip (r := ⟨Rx.init, 2, []⟩) (m := m) (c := x) (u := 1) (by decide) rfl hsk
  refine ⟨⟨Rx.init, 1, []⟩, ?_, rfl⟩
  show recv _ m ((before ++ [255]) :: x :: cs) = _
  rw [recv, hr1, Option.bind_some, recv, hr2, Option.bind_some, (C141_skipped_partial m cs ⟨Rx.init, 1, []⟩ rfl rfl h3).1]
  simp; omega

/-- A user who sent "AO, synch" and then "hello" is not heard. -/
example : (match (R.init.llWrite 100 .oobtcp [242] 100).bind fun q => recv q.r 100 [[255], [104, 101, 108, 108, 111]] with
    | some q => q.2.1 = [] | none => false) = true := by decide +kernel

/-! ### C143: an allocation that fails frees what was allocated, once -/

/-- If everything is got, or if one of the first three allocations fails: nothing is freed twice, nothing
lost. -/
theorem C143_alloc_partial (seq : Bool) (fail : Option Obj) (h : fail ∈ [none, some .cmds, some .tfilter] ∨ (fail = some .initSeq ∧ seq = true)) :
    ∃ l ok, alloc seq fail = some (l, ok) ∧ (ok = false → l = []) ∧ (ok = true ↔ fail = none) ∧
      (ok = true → l.Nodup ∧ ∀ o, o ∈ l ↔ (o = .initSeq → seq = true)) := by
  rcases h with h | ⟨rfl, rfl⟩
  · simp only [List.mem_cons, List.not_mem_nil, or_false] at h
    rcases h with rfl | rfl | rfl
    · refine ⟨[.cmds] ++ (if seq then [.initSeq] else []) ++ [.tfilter, .lock, .readData, .writeData, .filter], true, ?_, ?_, ?_, fun _ => ⟨?_, ?_⟩⟩
      · cases seq <;> decide
      · simp
      · simp
      · cases seq <;> decide
      · intro o; cases seq <;> cases o <;> decide
    all_goals
      cases seq
      · exact ⟨[], false, rfl, by decide, by decide, by simp⟩
      · exact ⟨[], false, rfl, by decide, by decide, by simp⟩
  · exact ⟨[], false, rfl, by decide, by decide, by simp⟩

/-- All is got. -/
example : alloc true none = some ([.cmds, .initSeq, .tfilter, .lock, .readData, .writeData, .filter], true) := by decide

/-- If the lock, a buffer or the filter cannot be had the command table is freed by both functions. -/
theorem C143_twice_violated : ∀ seq, ∀ o ∈ [Obj.lock, .readData, .writeData, .filter], alloc seq (some o) = none := by decide

/-! ### C145: the filter writes what is in its buffer, and starts afresh when opened again -/

theorem takeSg_length (m : Nat) (sg : List (List UInt8)) : (Telnet.takeSg m sg).1.length ≤ m := by
  induction sg with
  | nil => simp [Telnet.takeSg]
  | cons d rest ih =>
    rw [Telnet.takeSg]
    split
    · exact (Telnet.xmit_spec d m).2.2.1
    · exact ih

/-- Position and length are inside the buffer, and nothing waiting means position 0. -/
def W.Ok (w : W) : Prop := w.pos + w.len ≤ w.mem.length ∧ (w.len = 0 → w.pos = 0)

theorem ulWrite_ok {w : W} (h : w.Ok) (sg : List (List UInt8)) (a1 a2 : Ans) :
    ∃ q, w.ulWrite sg a1 a2 = some q ∧ (q.err = false → q.w.Ok) := by
  have hload : ∃ w' n, w.load sg = some (w', n) ∧ w'.Ok := by
    unfold W.load
    split
    · exact ⟨_, _, rfl, h⟩
    · rename_i hl
      have hl' : w.len = 0 := by simpa using hl
      have hle := takeSg_length w.mem.length sg
      dsimp only
      have hw := Mem.write_eq (m := w.mem) (off := 0) (d := (Telnet.takeSg w.mem.length sg).1) (by omega)
      rw [hw]
      refine ⟨_, _, rfl, ?_⟩
      have := Mem.write_length hw
      refine ⟨?_, fun _ => h.2 hl'⟩
      show w.pos + (Telnet.takeSg w.mem.length sg).1.length ≤ List.length _
      rw [this, h.2 hl']; omega
  obtain ⟨w1, n, e1, h1⟩ := hload
  unfold W.ulWrite
  rw [e1, Option.bind_some]
  have hcmd : ((w1.pushCmd a1).2.2 = false ∧ (w1.pushCmd a1).1.Ok) ∨ ((w1.pushCmd a1).2.2 = true ∧ (w1.pushCmd a1).1.len = 0) := by
    unfold W.pushCmd
    split
    · cases a1 with
      | fail => exact Or.inr ⟨rfl, rfl⟩
      | took k => exact Or.inl ⟨rfl, h1⟩
    · exact Or.inl ⟨rfl, h1⟩
  dsimp only
  rcases hcmd with ⟨c1, c2⟩ | ⟨c1, c2⟩
  · generalize w1.pushCmd a1 = p at c1 c2
    unfold W.pushUser
    split
    · rename_i hp
      rw [Mem.read_eq c2.1]
      cases a2 with
      | fail => exact ⟨_, rfl, fun h => by simp [hp] at h⟩
      | took k =>
        refine ⟨_, rfl, fun _ => ?_⟩
        dsimp only
        split
        · exact ⟨Nat.zero_le _, fun _ => rfl⟩
        · rename_i hk
          refine ⟨?_, fun h => ?_⟩
          · show p.1.pos + k + (p.1.len - k) ≤ p.1.mem.length
            have := c2.1; omega
          · have : p.1.len - k = 0 := h
            omega
    · exact ⟨_, rfl, fun _ => c2⟩
  · generalize w1.pushCmd a1 = p at c1 c2
    unfold W.pushUser
    rw [if_neg (by simp [c2])]
    exact ⟨_, rfl, fun h => by simp [c2, c1] at h⟩

theorem run_ok : ∀ (ops : List WOp) (r : WRun), (r.err = false → r.w.Ok) → r.heed ops = true → r.run ops ≠ none := by
  intro ops
  induction ops with
  | nil => intro r _ _; simp [WRun.run]
  | cons o os ih =>
    intro r h hh
    cases o with
    | setup seq =>
      simp only [WRun.heed, Bool.true_and] at hh
      exact ih _ (fun he => h he) hh
    | cmd c =>
      simp only [WRun.heed, Bool.true_and] at hh
      exact ih _ (fun he => h he) hh
    | cleanup =>
      simp only [WRun.heed, Bool.true_and] at hh
      exact ih _ (fun _ => ⟨Nat.zero_le _, fun _ => rfl⟩) hh
    | write sg a1 a2 =>
      simp only [WRun.heed, Bool.and_eq_true] at hh
      obtain ⟨h1, h2⟩ := hh
      rw [WRun.run]
      have he : r.err = false := by simpa using h1
      obtain ⟨q, hq, hok⟩ := ulWrite_ok (h he) sg a1 a2
      have hs : r.step (.write sg a1 a2) = some ⟨q.w, r.err || q.err, r.out ++ q.out, r.taken + q.taken⟩ := by
        rw [WRun.step, hq]; rfl
      rw [hs] at h2 ⊢
      rw [Option.bind_some]
      refine ih _ ?_ h2
      intro h'
      rw [he, Bool.false_or] at h'
      exact hok h'

/-- Whatever is written, whatever the lower layer takes and however often the filter is reopened, no byte
outside the buffer is read or written, provided nothing is written between an error and the close; a
filter with RFC 2217 or RFC 1073 has, after it was closed and opened, no trace of what went before but
the bytes in its buffer. -/
theorem C145_buffer_partial (maxWrite : Nat) (ext : Bool) (ops : List WOp) (h : WRun.heed ⟨W.new maxWrite ext, false, [], 0⟩ ops = true) :
    WRun.run ⟨W.new maxWrite ext, false, [], 0⟩ ops ≠ none ∧
    ∀ (w : W) (seq : List UInt8), w.ext = true → w.mem.length = maxWrite →
      { w.cleanup.setup seq with mem := List.replicate maxWrite 0 } = (W.new maxWrite true).setup seq := by
  refine ⟨run_ok ops _ (fun _ => ⟨by simp [W.new], fun _ => rfl⟩) h, ?_⟩
  intro w seq hw hm
  cases w
  simp at hw
  subst hw
  rfl

/-- A write taken in part, an error, close and open, and a write. -/
example : let ops := [WOp.setup [], .write [[1, 2, 3]] (.took 0) (.took 2), .write [] (.took 0) .fail, .cleanup, .setup [], .write [[9]] (.took 0) (.took 5)]
    WRun.heed ⟨W.new 4 true, false, [], 0⟩ ops = true ∧
    (WRun.run ⟨W.new 4 true, false, [], 0⟩ ops).map (fun r => (r.out, r.taken)) = some ([9], 1) := by decide +kernel

/-- After an error the position is left where it was: data written then, without a close between, is
looked for at that position, past the end of the buffer. -/
theorem C145_position_violated :
    WRun.run ⟨W.new 4 true, false, [], 0⟩ [.setup [], .write [[1, 2, 3, 4]] (.took 0) (.took 3), .write [] (.took 0) .fail,
      .write [[1, 2, 3, 4]] (.took 0) (.took 4)] = none := by decide +kernel

/-- Writes only. -/
def WOp.isWrite : WOp → Bool
  | .write .. => true
  | _ => false

theorem stuck_write {w : W} (hs : w.st = .inTnWrite) (hq : w.cmdQ = []) (h : w.Ok) (sg : List (List UInt8)) (a1 a2 : Ans) :
    ∃ q, w.ulWrite sg a1 a2 = some q ∧ q.out = [] ∧ q.err = false ∧ q.w.st = .inTnWrite ∧ q.w.cmdQ = [] ∧ q.w.Ok := by
  obtain ⟨q, hq1, hok⟩ := ulWrite_ok h sg a1 a2
  have hl : ∀ w' n, w.load sg = some (w', n) → w'.st = .inTnWrite ∧ w'.cmdQ = [] := by
    intro w' n hl
    unfold W.load at hl
    split at hl
    · simp at hl; rw [← hl.1]; exact ⟨hs, hq⟩
    · dsimp only at hl
      cases hm : w.mem.write 0 (Telnet.takeSg w.mem.length sg).1 with
      | none => rw [hm] at hl; simp at hl
      | some x => rw [hm] at hl; simp at hl; rw [← hl.1]; exact ⟨hs, hq⟩
  have hq2 := hq1
  unfold W.ulWrite at hq2
  cases hl' : w.load sg with
  | none => rw [hl'] at hq2; simp at hq2
  | some x =>
    obtain ⟨w1, n⟩ := x
    obtain ⟨l1, l2⟩ := hl w1 n hl'
    rw [hl', Option.bind_some] at hq2
    have hp : w1.pushCmd a1 = (w1, [], false) := by unfold W.pushCmd; rw [if_neg (by simp [l2])]
    have hu : w1.pushUser a2 = some (w1, [], false) := by unfold W.pushUser; rw [if_neg (by simp [l1])]
    simp only [hp, hu, Option.map_some, Option.some.injEq] at hq2
    have he : q.err = false := by rw [← hq2]; simp [l1]
    exact ⟨q, hq1, by rw [← hq2]; rfl, he, by rw [← hq2]; exact l1, by rw [← hq2]; exact l2, hok he⟩

theorem stuck_run : ∀ (ops : List WOp) (r : WRun), (∀ o ∈ ops, o.isWrite = true) → r.w.st = .inTnWrite → r.w.cmdQ = [] → r.w.Ok →
    ∃ r', r.run ops = some r' ∧ r'.out = r.out ∧ r'.err = r.err := by
  intro ops
  induction ops with
  | nil => intro r _ _ _ _; exact ⟨r, rfl, rfl, rfl⟩
  | cons o os ih =>
    intro r ho h1 h2 h3
    cases o with
    | write sg a1 a2 =>
      obtain ⟨q, e1, e2, e3, e4, e5, e6⟩ := stuck_write h1 h2 h3 sg a1 a2
      obtain ⟨r', f1, f2, f3⟩ := ih ⟨q.w, r.err || q.err, r.out ++ q.out, r.taken + q.taken⟩ (fun o h => ho o (by simp [h])) e4 e5 e6
      refine ⟨r', ?_, ?_, ?_⟩
      · rw [WRun.run, WRun.step, e1]; exact f1
      · rw [f2, e2]; simp
      · rw [f3, e3]; simp
    | setup x => simpa [WOp.isWrite] using ho (.setup x) (by simp)
    | cmd x => simpa [WOp.isWrite] using ho (.cmd x) (by simp)
    | cleanup => simpa [WOp.isWrite] using ho .cleanup (by simp)

/-- Without RFC 2217 and RFC 1073: a filter closed while an answer to an option was partly written, and
opened again, takes user data and sends none of it, whatever the lower layer would take. -/
theorem C145_reopen_stuck_violated (ops : List WOp) (h : ∀ o ∈ ops, o.isWrite = true) :
    ∃ r, WRun.run ⟨W.new 100 false, false, [], 0⟩ [.setup [], .cmd [255, 252, 1], .write [] (.took 1) (.took 0), .cleanup, .setup []] = some r ∧
      r.out = [] ∧ r.err = false ∧ ∃ r', r.run ops = some r' ∧ r'.out = [] ∧ r'.err = false ∧
      (r.run [.write [[104, 105]] (.took 100) (.took 100)]).map (fun x => (x.taken, x.out)) = some (2, []) := by
  obtain ⟨r', e1, e2, e3⟩ := stuck_run ops ⟨⟨[], List.replicate 100 0, 0, 0, .inTnWrite, false⟩, false, [], 0⟩ h rfl rfl ⟨by simp, fun _ => rfl⟩
  exact ⟨⟨⟨[], List.replicate 100 0, 0, 0, .inTnWrite, false⟩, false, [], 0⟩, by decide +kernel, rfl, rfl, r', e1, e2, e3, by decide +kernel⟩

end Gensio.TelnetFilt
