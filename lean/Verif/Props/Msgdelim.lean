import Verif.Model.Msgdelim
import Verif.Props.Crc
/-!
# Message delimiter layer: C16, C17, C18
-/
namespace Gensio.Msgdelim

/-! ### What the line shall carry, independent of the code -/

/-- 254 is sent as 254 0. -/
def escape (d : List UInt8) : List UInt8 := d.flatMap fun b => if b = 254 then [254, 0] else [b]

/-- Message with check value. -/
def body (crc : Bool) (m : List UInt8) : List UInt8 := if crc then Crc.msgdelimFrame m else m

/-- One message on the line. -/
def frame (crc : Bool) (m : List UInt8) : List UInt8 := escape (body crc m) ++ [254, 1]

/-- A first separator, then the messages, each ended by a separator. -/
def stream (crc : Bool) (ms : List (List UInt8)) : List UInt8 := [254, 1] ++ ms.flatMap (frame crc)

theorem escape_cons (b : UInt8) (d : List UInt8) :
    escape (b :: d) = (if b = 254 then [254, 0] else [b]) ++ escape d := by simp [escape]
theorem escape_append (a b : List UInt8) : escape (a ++ b) = escape a ++ escape b := by simp [escape]
theorem escape_length (d : List UInt8) : (escape d).length ≤ 2 * d.length := by
  induction d with
  | nil => simp [escape]
  | cons b d ih => rw [escape_cons]; split <;> simp <;> omega
theorem stream_append (crc : Bool) (ms : List (List UInt8)) (m : List UInt8) :
    stream crc (ms ++ [m]) = stream crc ms ++ frame crc m := by simp [stream]

/-! ### The receiver, delivering at once -/

/-- The message handed up, the rest of the state. -/
def out (s : Rx) : Rx × List (List UInt8) :=
  if s.complete then ({ s with complete := false, rd := [] }, [s.rd]) else (s, [])

def run (c : Cfg) (s : Rx) : List UInt8 → Option (Rx × List (List UInt8))
  | [] => some (s, [])
  | b :: bs => do
    let s ← rxByte c s b
    let (s2, l) ← run c (out s).1 bs
    some (s2, (out s).2 ++ l)

theorem run_append (c : Cfg) (a : List UInt8) : ∀ (b : List UInt8) (s : Rx),
    run c s (a ++ b) = (do
      let (s1, l1) ← run c s a
      let (s2, l2) ← run c s1 b
      some (s2, l1 ++ l2)) := by
  induction a with
  | nil => intro b s; simp only [List.nil_append, run, Option.bind_eq_bind, Option.bind_some]; cases run c s b <;> simp
  | cons x a ih =>
    intro b s
    simp only [List.cons_append, run, ih]
    cases rxByte c s x with
    | none => simp
    | some s' =>
      simp only [Option.bind_eq_bind, Option.bind_some]
      cases run c (out s').1 a with
      | none => simp
      | some p =>
        simp only [Option.bind_some]
        cases run c p.1 b <;> simp

theorem run_prefix {c : Cfg} {s : Rx} {a b : List UInt8} (h : run c s (a ++ b) ≠ none) : run c s a ≠ none := by
  intro h2
  rw [run_append, h2] at h
  exact h rfl

theorem out_complete (s : Rx) : (out s).1.complete = false := by
  unfold out; split <;> simp_all

theorem run_complete {c : Cfg} (b : List UInt8) : ∀ {s s' : Rx} {l}, s.complete = false →
    run c s b = some (s', l) → s'.complete = false := by
  induction b with
  | nil => intro s s' l h e; simp [run] at e; rw [← e.1]; exact h
  | cons x b ih =>
    intro s s' l h e
    simp only [run, Option.bind_eq_bind, Option.bind_eq_some_iff] at e
    obtain ⟨s1, e1, ⟨s2, l2⟩, e2, e3⟩ := e
    simp at e3
    rw [← e3.1]
    exact ih (out_complete s1) e2

theorem rxLoop_spec (c : Cfg) (buf : List UInt8) : ∀ s, s.complete = false → run c s buf ≠ none →
    ∃ s' n, rxLoop c s buf = some (s', n) ∧ n ≤ buf.length ∧ run c s (buf.take n) = some (out s') ∧
      (buf ≠ [] → 0 < n) := by
  induction buf with
  | nil => intro s h _; exact ⟨s, 0, rfl, by simp, by simp [run, out, h], by simp⟩
  | cons b buf ih =>
    intro s h hr
    cases e : rxByte c s b with
    | none => simp [run, e] at hr
    | some s1 =>
      by_cases hc : s1.complete = true
      · refine ⟨s1, 1, ?_, by simp, ?_, by simp⟩
        · simp only [rxLoop, h, e]
          cases buf <;> simp [rxLoop, hc]
        · simp [run, e]
      · have hc : s1.complete = false := by simpa using hc
        have ho : out s1 = (s1, []) := by simp [out, hc]
        have hr' : run c s1 buf ≠ none := by
          intro hn; simp [run, e, ho, hn] at hr
        obtain ⟨s2, n, e2, hn, hr2, _⟩ := ih s1 hc hr'
        refine ⟨s2, n + 1, by simp [rxLoop, h, e, e2], by simp; omega, ?_, by simp⟩
        simp [run, e, ho, hr2]

/-! ### Feeding a receiver -/

/-- State of a receiver with what its user got: whole messages, and the part of the next. -/
structure Log where
  rx : Rx := {}
  msgs : List (List UInt8) := []
  part : List UInt8 := []
deriving DecidableEq, Repr

/-- One call of `msgdelim_ll_write`. -/
def Log.call (c : Cfg) (l : Log) (buf : List UInt8) (acc : Nat) : Option (Log × Nat) := do
  let (s, n, ev) ← llWrite c l.rx buf acc
  match ev with
  | none => some ({ l with rx := s }, n)
  | some (d, true) => some ({ rx := s, msgs := l.msgs ++ [l.part ++ d], part := [] }, n)
  | some (d, false) => some ({ l with rx := s, part := l.part ++ d }, n)

/-- Calls offering the first `n` unused bytes of the line, the user taking up to `acc` bytes. -/
def feed (c : Cfg) (l : Log) (line : List UInt8) : List (Nat × Nat) → Option (Log × List UInt8)
  | [] => some (l, line)
  | (n, acc) :: sched => do
    let (l, k) ← l.call c (line.take n) acc
    feed c l (line.drop k) sched

/-- What the log amounts to when a message waiting for the user counts as delivered. -/
def Log.virt (l : Log) : Rx × List (List UInt8) :=
  if l.rx.complete then ({ l.rx with complete := false, rd := [] }, l.msgs ++ [l.part ++ l.rx.rd]) else (l.rx, l.msgs)

def Log.ok (l : Log) : Prop := l.rx.complete = false → l.part = []

theorem call_spec (c : Cfg) (l : Log) (buf : List UInt8) (acc : Nat) (hok : l.ok)
    (hr : run c l.virt.1 buf ≠ none) :
    ∃ l' n, l.call c buf acc = some (l', n) ∧ n ≤ buf.length ∧ l'.ok ∧
      run c l.virt.1 (buf.take n) = some (l'.virt.1, l'.virt.2.drop l.virt.2.length) ∧
      l.virt.2 <+: l'.virt.2 ∧ (l.rx.complete = false → buf ≠ [] → 0 < n) ∧
      (l.rx.complete = true → 0 < acc → l'.rx.rd.length < l.rx.rd.length ∨ l'.rx.complete = false) := by
  have key : ∃ s n, rxPart c l.rx buf = some (s, n) ∧
      n ≤ buf.length ∧ run c l.virt.1 (buf.take n) =
        some ((({ l with rx := s } : Log).virt).1, (({ l with rx := s } : Log).virt).2.drop l.virt.2.length) ∧
      l.virt.2 <+: (({ l with rx := s } : Log).virt).2 ∧ (s.complete = false → l.part = []) ∧
      (l.rx.complete = true → s = l.rx) ∧ (l.rx.complete = false → buf ≠ [] → 0 < n) := by
    by_cases hc : l.rx.complete = true
    · refine ⟨l.rx, 0, by simp [rxPart, hc], by simp, ?_, List.prefix_refl _, hok, fun _ => rfl, by simp [hc]⟩
      simp [run]
    · have hc : l.rx.complete = false := by simpa using hc
      have hv : l.virt = (l.rx, l.msgs) := by simp [Log.virt, hc]
      have hp := hok hc
      by_cases hb : buf = []
      · subst hb
        refine ⟨l.rx, 0, by simp [rxPart], by simp, ?_, List.prefix_refl _, hok, fun _ => rfl, by simp⟩
        simp [run]
      · rw [hv] at hr
        obtain ⟨s, n, e, hn, hrun, hpos⟩ := rxLoop_spec c buf l.rx hc hr
        refine ⟨s, n, ?_, hn, ?_, ?_, fun _ => hp, by simp [hc], fun _ => hpos⟩
        · simp [rxPart, hc, hb, e]
        · rw [hv]
          simp only [hrun]
          unfold out Log.virt
          by_cases hs : s.complete = true
          · simp [hs, hp]
          · simp [hs]
        · rw [hv]
          unfold Log.virt
          by_cases hs : s.complete = true
          · simp [hs]
          · simp [hs]
  obtain ⟨s, n, e, hn, hrun, hpre, hpart, hsame, hpos⟩ := key
  simp only [Log.call, llWrite, e, Option.bind_eq_bind, Option.bind_some]
  by_cases hs : s.complete = true
  · simp only [hs, if_true]
    by_cases ha : acc ≥ s.rd.length
    · simp only [ha, if_true, Option.bind_some]
      refine ⟨_, _, rfl, hn, fun _ => rfl, ?_, ?_, hpos, by simp⟩
      · rw [hrun]; simp [Log.virt, hs]
      · simpa [Log.virt, hs] using hpre
    · simp only [ha, if_false, Option.bind_some]
      refine ⟨_, _, rfl, hn, by simp [Log.ok, hs], ?_, ?_, hpos, ?_⟩
      · rw [hrun]; simp [Log.virt, hs, List.append_assoc]
      · simpa [Log.virt, hs, List.append_assoc] using hpre
      · intro h1 h2; left
        rw [← hsame h1]
        simp; omega
  · simp only [hs, if_false, Option.bind_some]
    refine ⟨_, _, rfl, hn, hpart, hrun, hpre, hpos, ?_⟩
    intro h1; rw [hsame h1, h1] at hs; simp at hs

theorem feed_spec (c : Cfg) (sched : List (Nat × Nat)) : ∀ (l : Log) (line : List UInt8), l.ok →
    run c l.virt.1 line ≠ none →
    ∃ l' used rest, feed c l line sched = some (l', rest) ∧ l'.ok ∧ line = used ++ rest ∧
      ∃ d, run c l.virt.1 used = some (l'.virt.1, d) ∧ l'.virt.2 = l.virt.2 ++ d := by
  induction sched with
  | nil => intro l line h _; exact ⟨l, [], line, rfl, h, by simp, [], rfl, by simp⟩
  | cons x sched ih =>
    intro l line h hr
    obtain ⟨n, acc⟩ := x
    have hr1 : run c l.virt.1 (line.take n) ≠ none :=
      run_prefix (b := line.drop n) (by rwa [List.take_append_drop])
    obtain ⟨l1, k, e1, hk, h1, hrun, hpre, _⟩ := call_spec c l (line.take n) acc h hr1
    obtain ⟨d1, hd1⟩ := hpre
    have hdrop : l1.virt.2.drop l.virt.2.length = d1 := by rw [← hd1]; simp
    rw [hdrop, List.take_take, Nat.min_eq_left (by simp at hk; omega)] at hrun
    have hr2 : run c l1.virt.1 (line.drop k) ≠ none := by
      intro hn
      rw [← List.take_append_drop k line, run_append, hrun] at hr
      simp [hn] at hr
    obtain ⟨l2, used, rest, e2, h2, hline, d2, hrun2, hd2⟩ := ih l1 (line.drop k) h1 hr2
    refine ⟨l2, line.take k ++ used, rest, by simp [feed, e1, e2], h2, ?_, d1 ++ d2, ?_, ?_⟩
    · rw [List.append_assoc, ← hline, List.take_append_drop]
    · rw [run_append, hrun]; simp [hrun2]
    · rw [hd2, ← hd1, List.append_assoc]

/-! ### The receiver on good streams -/

theorem store_ok {c : Cfg} {s : Rx} {b : UInt8} (h : s.inMsg = true) (h1 : s.rd.length < c.limit)
    (h2 : s.rd.length < c.rcap) : store c s b = some { s with rd := s.rd ++ [b] } := by
  simp [store, h, Nat.not_le.2 h1, h2]

theorem run_escape (c : Cfg) (d : List UInt8) : ∀ s : Rx, s.inMsg = true → s.inCmd = false →
    s.complete = false → s.rd.length + d.length ≤ c.limit → s.rd.length + d.length ≤ c.rcap →
    run c s (escape d) = some ({ s with rd := s.rd ++ d }, []) := by
  induction d with
  | nil => intro s _ _ _ _ _; simp [escape, run]
  | cons b d ih =>
    intro s h1 h2 h3 h4 h5
    simp only [List.length_cons] at h4 h5
    rw [escape_cons, run_append]
    have hs := store_ok (c := c) (s := s) (b := b) h1 (by omega) (by omega)
    have hone : run c s (if b = 254 then [254, 0] else [b]) = some ({ s with rd := s.rd ++ [b] }, []) := by
      split
      · rename_i hb
        subst hb
        have e1 : rxByte c s 254 = some { s with inCmd := true } := by simp [rxByte, h2]
        have e2 : rxByte c { s with inCmd := true } 0 = some { s with rd := s.rd ++ [254] } := by
          simp only [rxByte, if_true]
          have : ({ s with inCmd := false } : Rx) = s := by cases s; simp_all
          rw [this, hs]
        rw [h3] at e1 e2
        simp [run, e1, out, e2, h3]
      · rename_i hb
        have e1 : rxByte c s b = some { s with rd := s.rd ++ [b] } := by simp [rxByte, h2, hb, hs]
        simp [run, e1, out, h3]
    rw [hone]
    simp only [Option.bind_eq_bind, Option.bind_some]
    rw [ih { s with rd := s.rd ++ [b] } h1 h2 h3 (by simp; omega) (by simp; omega)]
    simp

/-- Ready for the next message. -/
def clean : Rx := { inMsg := true }

theorem run_frame (c : Cfg) (m : List UInt8) (hm : m ≠ []) (h1 : (body c.crc m).length ≤ c.limit)
    (h2 : (body c.crc m).length ≤ c.rcap) : run c clean (frame c.crc m) = some (clean, [m]) := by
  rw [frame, run_append, run_escape c (body c.crc m) clean rfl rfl rfl (by simpa [clean] using h1)
    (by simpa [clean] using h2)]
  simp only [Option.bind_eq_bind, Option.bind_some]
  cases hc : c.crc
  · simp [run, rxByte, out, clean, body, hc]
  · have hk := Crc.C12_msgdelim_accepts m hm
    simp only [Crc.msgdelimCheck, Bool.and_eq_true, decide_eq_true_eq] at hk
    have hl : ¬ (Crc.msgdelimFrame m).length ≤ 2 := by omega
    have ht : (Crc.msgdelimFrame m).take ((Crc.msgdelimFrame m).length - 2) = m := by
      simp [Crc.msgdelimFrame]
    simp [run, rxByte, out, clean, body, hc, hl, hk.2, ht]

theorem run_frames (c : Cfg) (ms : List (List UInt8))
    (h : ∀ m ∈ ms, m ≠ [] ∧ (body c.crc m).length ≤ c.limit ∧ (body c.crc m).length ≤ c.rcap) :
    run c clean (ms.flatMap (frame c.crc)) = some (clean, ms) := by
  induction ms with
  | nil => simp [run]
  | cons m ms ih =>
    obtain ⟨a, b, d⟩ := h m (by simp)
    rw [List.flatMap_cons, run_append, run_frame c m a b d]
    simp [ih (fun m hm => h m (by simp [hm]))]

theorem run_stream (c : Cfg) (ms : List (List UInt8))
    (h : ∀ m ∈ ms, m ≠ [] ∧ (body c.crc m).length ≤ c.limit ∧ (body c.crc m).length ≤ c.rcap) :
    run c {} (stream c.crc ms) = some (clean, ms) := by
  rw [stream, run_append]
  have : run c {} [254, 1] = some (clean, []) := by simp [run, rxByte, out, clean]
  rw [this]
  simp [run_frames c ms h]

/-! ### C16 -/

theorem addByte_ok {c : Cfg} {w : List UInt8} {b : UInt8} (h : w.length + 2 ≤ c.wcap) :
    addByte c w b = some (w ++ escape [b]) := by
  by_cases hb : b = 254
  · simp [addByte, put, hb, escape, show w.length < c.wcap by omega, show w.length + 1 < c.wcap by omega]
  · simp [addByte, put, hb, escape, show w.length < c.wcap by omega]

theorem addData_ok (c : Cfg) (d : List UInt8) : ∀ (w : List UInt8) (u : Nat), u + d.length ≤ c.maxWrite →
    w.length + 2 * d.length ≤ c.wcap → addData c w u d = some (some (w ++ escape d, u + d.length)) := by
  induction d with
  | nil => intro w u _ _; simp [addData, escape]
  | cons b d ih =>
    intro w u h1 h2
    simp only [List.length_cons] at h1 h2
    have hl : (escape [b]).length ≤ 2 := by have := escape_length [b]; simpa using this
    rw [addData, if_neg (by omega), addByte_ok (by omega)]
    simp only [Option.bind_eq_bind, Option.bind_some]
    rw [ih _ _ (by omega) (by simp; omega), show b :: d = [b] ++ d by rfl, escape_append]
    simp; omega

/-- Sends: the data offered and the number of bytes the lower layer takes. -/
def sends (c : Cfg) (t : Tx) : List (List UInt8 × Nat) → Option (Tx × List UInt8 × List (List UInt8))
  | [] => some (t, [], [])
  | (d, acc) :: ops => do
    let (t, r, w) ← ulWrite c t d acc
    let (t, w2, ms) ← sends c t ops
    -- a message is accepted if the write reports a count above 0
    let m := match r with
      | .ok (_ + 1) => [d]
      | _ => []
    some (t, w ++ w2, m ++ ms)

structure TInv (c : Cfg) (t : Tx) : Prop where
  idle : t.complete = false → t.wpos = 0 ∧ t.upos = 0 ∧ t.wd.length ≤ 2

theorem ulWrite_spec (mr mw : Nat) (crc : Bool) (t : Tx) (d : List UInt8) (acc : Nat) (hd : d.length ≤ mw)
    (h : TInv (Cfg.alloc mr mw crc) t) :
    ∃ t' n w, ulWrite (Cfg.alloc mr mw crc) t d acc = some (t', .ok n, w) ∧ TInv (Cfg.alloc mr mw crc) t' ∧
      ((n = 0 ∧ w ++ t'.wd.drop t'.wpos = t.wd.drop t.wpos) ∨
       (d ≠ [] ∧ n = d.length ∧ w ++ t'.wd.drop t'.wpos = t.wd.drop t.wpos ++ frame crc d)) ∧
      (t.complete = false → n = d.length) := by
  generalize hc : Cfg.alloc mr mw crc = c at *
  have hcrc : c.crc = crc := by rw [← hc]; rfl
  have hw : c.wcap = (mw + 2) * 2 + 4 := by rw [← hc]; rfl
  have hmw : c.maxWrite = mw := by rw [← hc]; rfl
  have hfin : ∀ t : Tx, t.complete = true → TInv c (flush t acc).1 ∧
      (flush t acc).2 ++ (flush t acc).1.wd.drop (flush t acc).1.wpos = t.wd.drop t.wpos := by
    intro t ht
    simp only [flush, ht, if_true]
    split
    · exact ⟨⟨by simp⟩, by simp⟩
    · refine ⟨⟨by simp [ht]⟩, ?_⟩
      simp only
      rw [← List.drop_drop, List.take_append_drop]
  unfold ulWrite
  by_cases ht : t.complete = true
  · obtain ⟨h1, h2⟩ := hfin t ht
    exact ⟨_, 0, _, by rw [if_pos ht], h1, Or.inl ⟨rfl, h2⟩, by simp [ht]⟩
  · have ht : t.complete = false := by simpa using ht
    obtain ⟨i1, i2, i3⟩ := h.idle ht
    have hed := escape_length d
    have ha := addData_ok c d t.wd t.upos (by omega) (by omega)
    simp only [ht, Bool.false_eq_true, if_false, ha, Option.bind_eq_bind, Option.bind_some]
    by_cases hne : d = []
    · subst hne
      rw [if_neg (by simp [i2])]
      refine ⟨_, _, _, rfl, ⟨fun _ => ⟨i1, by simp [i2], ?_⟩⟩, Or.inl ⟨rfl, by simp [escape, i1]⟩, by simp⟩
      simpa [escape] using i3
    · have hpos : 0 < d.length := by cases d <;> simp at hne ⊢
      rw [if_pos (by omega)]
      have hend : addEnd c (t.wd ++ escape d) d = some (t.wd ++ frame crc d) := by
        have hb : ∀ x : UInt8, (escape [x]).length ≤ 2 := fun x => by
          have := escape_length [x]; simpa using this
        have hput : ∀ (w : List UInt8) x, w.length < c.wcap → put c w x = some (w ++ [x]) := by
          intro w x h; rw [put, if_pos h]
        unfold addEnd
        cases hcc : crc
        · rw [hcc] at hcrc
          simp only [hcrc, Bool.false_eq_true, if_false, Option.bind_eq_bind, Option.bind_some]
          rw [hput _ _ (by simp; omega)]
          simp only [Option.bind_some]
          rw [hput _ _ (by simp; omega)]
          simp [frame, body]
        · rw [hcc] at hcrc
          simp only [hcrc, if_true]
          have hx := hb (Crc.crc16 0 d >>> 8).toUInt8
          have hy := hb (Crc.crc16 0 d &&& 0xff).toUInt8
          have hl : frame true d = escape d ++ escape [(Crc.crc16 0 d >>> 8).toUInt8] ++
              escape [(Crc.crc16 0 d &&& 0xff).toUInt8] ++ [254] ++ [1] := by
            simp [frame, body, Crc.msgdelimFrame, escape]
          rw [hl]
          rw [addByte_ok (by simp only [List.length_append]; omega)]
          simp only [Option.bind_eq_bind, Option.bind_some]
          rw [addByte_ok (by simp only [List.length_append]; omega)]
          simp only [Option.bind_some]
          rw [hput _ _ (by simp only [List.length_append]; omega)]
          simp only [Option.bind_some]
          rw [hput _ _ (by simp only [List.length_append, List.length_singleton]; omega)]
          simp only [List.append_assoc]
      rw [hend]
      obtain ⟨h1, h2⟩ := hfin { t with wd := t.wd ++ frame crc d, upos := t.upos + d.length, complete := true } rfl
      refine ⟨_, d.length, _, rfl, h1, Or.inr ⟨hne, rfl, ?_⟩, fun _ => rfl⟩
      rw [h2]
      simp [i1]

/-- **C16, sending.**  Writes of any messages up to the configured size, the lower layer taking
any number of bytes each time: nothing is ever stored outside the write buffer, and what was
sent plus what waits to be sent is exactly the stream of the messages accepted. -/
theorem C16_send (mr mw : Nat) (crc : Bool) (ops : List (List UInt8 × Nat)) (h : ∀ o ∈ ops, o.1.length ≤ mw) :
    ∃ t w ms, sends (Cfg.alloc mr mw crc) Tx.init ops = some (t, w, ms) ∧
      w ++ t.wd.drop t.wpos = stream crc ms ∧ ms.Sublist (ops.map (·.1)) ∧ ∀ m ∈ ms, m ≠ [] ∧ m.length ≤ mw := by
  suffices ∀ (ops : List (List UInt8 × Nat)) (t0 : Tx), TInv (Cfg.alloc mr mw crc) t0 →
      (∀ o ∈ ops, o.1.length ≤ mw) → ∃ t w ms, sends (Cfg.alloc mr mw crc) t0 ops = some (t, w, ms) ∧
        w ++ t.wd.drop t.wpos = t0.wd.drop t0.wpos ++ ms.flatMap (frame crc) ∧ ms.Sublist (ops.map (·.1)) ∧
        ∀ m ∈ ms, m ≠ [] ∧ m.length ≤ mw by
    obtain ⟨t, w, ms, e1, e2, e3, e4⟩ := this ops Tx.init ⟨by simp [Tx.init]⟩ h
    exact ⟨t, w, ms, e1, by rw [e2]; simp [stream, Tx.init], e3, e4⟩
  intro ops
  induction ops with
  | nil => intro t0 _ _; exact ⟨t0, [], [], rfl, by simp, by simp, by simp⟩
  | cons o ops ih =>
    intro t0 ht h
    obtain ⟨d, acc⟩ := o
    obtain ⟨t1, n, w1, e1, i1, hcase, _⟩ := ulWrite_spec mr mw crc t0 d acc (h (d, acc) (by simp)) ht
    obtain ⟨t, w, ms, e2, e3, e4, e5⟩ := ih t1 i1 (fun o ho => h o (by simp [ho]))
    rcases hcase with ⟨rfl, hw⟩ | ⟨hne, rfl, hw⟩
    · refine ⟨t, w1 ++ w, ms, by simp [sends, e1, e2], ?_, ?_, e5⟩
      · rw [List.append_assoc, e3, ← List.append_assoc, hw]
      · exact List.Sublist.cons _ e4
    · obtain ⟨k, hk⟩ : ∃ k, d.length = k + 1 := by
        cases d with
        | nil => exact absurd rfl hne
        | cons x d => exact ⟨d.length, by simp⟩
      refine ⟨t, w1 ++ w, d :: ms, by simp [sends, e1, e2, hk], ?_, ?_, ?_⟩
      · rw [List.append_assoc, e3, ← List.append_assoc, hw]; simp
      · exact List.Sublist.cons_cons _ e4
      · intro m hm
        simp only [List.mem_cons] at hm
        rcases hm with rfl | hm
        · exact ⟨hne, h (m, acc) (by simp)⟩
        · exact e5 m hm

/-- **C16** (partial: each message with its check value must fit the receiver's buffer as
allocated; the configured maximum does not, see C17).  Whatever the chunks and however the user
takes the data: the user has a prefix of the messages (`part` being the start of the next), and
all of them once the line is used up and nothing waits. -/
theorem C16_delivery_partial (c : Cfg) (ms : List (List UInt8)) (sched : List (Nat × Nat))
    (h : ∀ m ∈ ms, m ≠ [] ∧ (body c.crc m).length ≤ c.limit ∧ (body c.crc m).length ≤ c.rcap) :
    ∃ l rest, feed c {} (stream c.crc ms) sched = some (l, rest) ∧
      (∃ more, ms = l.msgs ++ more ∧ (l.part = [] ∨ ∃ m tl, more = m :: tl ∧ l.part <+: m)) ∧
      (rest = [] → l.rx.complete = false → l.msgs = ms) := by
  have hr := run_stream c ms h
  have hv : ({} : Log).virt = ({}, []) := by simp [Log.virt]
  obtain ⟨l, used, rest, e, hok, hline, d, hrun, hd⟩ := feed_spec c sched {} (stream c.crc ms)
    (by intro _; rfl) (by rw [hv]; simp [hr])
  rw [hv] at hrun hd
  simp only [List.nil_append] at hd
  have hall : ∃ d2, ms = d ++ d2 ∧ (rest = [] → d2 = []) := by
    rw [hline, run_append, hrun] at hr
    simp only [Option.bind_eq_bind, Option.bind_some, Option.bind_eq_some_iff] at hr
    obtain ⟨⟨s2, l2⟩, e2, e3⟩ := hr
    simp at e3
    refine ⟨l2, e3.2.symm, ?_⟩
    rintro rfl
    simp [run] at e2; exact e2.2
  obtain ⟨d2, hms, hfin⟩ := hall
  refine ⟨l, rest, e, ?_, ?_⟩
  · by_cases hc : l.rx.complete = true
    · simp [Log.virt, hc] at hd
      refine ⟨(l.part ++ l.rx.rd) :: d2, by rw [hms, ← hd]; simp, Or.inr ⟨_, _, rfl, List.prefix_append _ _⟩⟩
    · have hc : l.rx.complete = false := by simpa using hc
      simp [Log.virt, hc] at hd
      exact ⟨d2, by rw [hms, hd], Or.inl (hok hc)⟩
  · intro hrest hc
    simp [Log.virt, hc] at hd
    rw [hms, hd, hfin hrest]; simp

/-- **C16, progress.**  A call with input, or with a message waiting and a user that takes
something, gets on. -/
theorem C16_progress (c : Cfg) (l : Log) (buf : List UInt8) (acc : Nat) (hok : l.ok)
    (hr : run c l.virt.1 buf ≠ none) :
    ∃ l' n, l.call c buf acc = some (l', n) ∧ (l.rx.complete = false → buf ≠ [] → 0 < n) ∧
      (l.rx.complete = true → 0 < acc → l'.rx.rd.length < l.rx.rd.length ∨ l'.rx.complete = false) := by
  obtain ⟨l', n, e, _, _, _, _, h1, h2⟩ := call_spec c l buf acc hok hr
  exact ⟨l', n, e, h1, h2⟩

/-- Messages with 254 in data and check value, in odd chunks. -/
example : (sends (Cfg.alloc 20 20 true) Tx.init [([254, 1], 3), ([9], 0), ([], 4), ([], 9), ([9], 99)]).map
      (fun x => (x.2.2, x.2.1 == stream true [[254, 1], [9]])) = some ([[254, 1], [9]], true) ∧
    (feed (Cfg.alloc 20 20 true) {} (stream true [[254, 1], [9]]) [(3, 9), (5, 1), (9, 0), (9, 1), (1, 1), (30, 1),
      (30, 1)]).map (fun x => (x.1.msgs, x.2)) = some ([[254, 1], [9]], []) := by decide +kernel

/-- **C16 fails after GE_TOOBIG on the first write** (also after close and reopen): the first
separator is dropped with the rejected data, so the peer never delivers the next message. -/
theorem C16_first_message_lost_violated :
    let c := Cfg.alloc 20 4 true
    let see := fun x : Tx × List UInt8 × List (List UInt8) => (x.2.2, x.1.wd, (run c {} x.2.1).map (·.2))
    (sends c Tx.init [([1, 2, 3, 4, 5], 99), ([7], 99)]).map see = some ([[7]], [], some []) ∧
    (sends c Tx.init.cleanup [([7], 99)]).map see = some ([[7]], [], some []) := by
  decide +kernel

/-! ### C17 -/

/-- **C17** (partial: under the condition that the buffer is as large as the limit the receiver
checks, which `gensio_msgdelim_filter_raw_alloc` does not provide).  No input stores outside the
receive buffer. -/
theorem C17_in_bounds_partial (c : Cfg) (h : c.limit ≤ c.rcap) (line : List UInt8) :
    ∀ s, run c s line ≠ none := by
  have hstore : ∀ s b, store c s b ≠ none := by
    intro s b
    unfold store
    repeat' split
    all_goals first | omega | simp
  have hb : ∀ s b, rxByte c s b ≠ none := by
    intro s b
    unfold rxByte
    simp only []
    repeat' split
    all_goals first | exact hstore _ _ | simp
  induction line with
  | nil => intro s; simp [run]
  | cons b line ih =>
    intro s
    cases e : rxByte c s b with
    | none => exact absurd e (hb s b)
    | some s1 =>
      cases e2 : run c (out s1).1 line with
      | none => exact absurd e2 (ih _)
      | some p => simp [run, e, e2]

theorem run_full (c : Cfg) (hl : c.rcap < c.limit) (d tl : List UInt8) (hd : c.rcap < d.length) :
    run c clean (escape d ++ tl) = none := by
  obtain ⟨a, x, b, rfl, ha⟩ : ∃ a x b, d = a ++ x :: b ∧ a.length = c.rcap :=
    ⟨d.take c.rcap, d[c.rcap]'hd, d.drop (c.rcap + 1), by simp, by simp; omega⟩
  have e1 := run_escape c a clean rfl rfl rfl (by simp [clean]; omega) (by simp [clean]; omega)
  simp only [clean, List.nil_append] at e1
  have e2 : run c { inMsg := true, rd := a } (if x = 254 then [254, 0] else [x]) = none := by
    have hs : ∀ y, store c { inMsg := true, rd := a } y = none := by
      intro y; simp [store, ha, Nat.not_le.2 hl]
    split
    · simp [run, rxByte, out, hs]
    · rename_i hx; simp [run, rxByte, hx, hs]
  rw [escape_append, escape_cons, List.append_assoc, List.append_assoc, run_append]
  simp only [clean, e1, Option.bind_eq_bind, Option.bind_some]
  rw [run_append, e2]
  rfl

/-- **C17 is violated**: whatever the configured sizes, a message of the configured maximum
length sent by an identically configured conforming peer makes the receiver store past the end
of its buffer (so does, with any settings, a long enough run of data bytes). -/
theorem C17_max_message_overflows_violated (n : Nat) (m : List UInt8) (hm : m.length = n) (mw : Nat) :
    run (Cfg.alloc n mw true) {} (stream true [m]) = none := by
  have : run (Cfg.alloc n mw true) {} [254, 1] = some (clean, []) := by simp [run, rxByte, out, clean]
  rw [stream, run_append, this]
  simp only [Option.bind_eq_bind, Option.bind_some, List.flatMap_cons, List.flatMap_nil, List.append_nil, frame]
  rw [run_full _ (by simp [Cfg.alloc]) _ _ (by simp [Cfg.alloc, body, Crc.msgdelimFrame]; omega)]
  rfl

theorem C17_any_crc_overflows_violated (n mw : Nat) (crc : Bool) (d : List UInt8) (hd : n < d.length) :
    run (Cfg.alloc n mw crc) {} ([254, 1] ++ escape d) = none := by
  have : run (Cfg.alloc n mw crc) {} [254, 1] = some (clean, []) := by simp [run, rxByte, out, clean]
  have h2 := run_full (Cfg.alloc n mw crc) (by simp [Cfg.alloc]) d [] hd
  rw [List.append_nil] at h2
  rw [run_append, this]
  simp [h2]

example : run (Cfg.alloc 3 3 true) {} [254, 1, 5, 6, 7] ≠ none ∧ run (Cfg.alloc 3 3 true) {} [254, 1, 5, 6, 7, 8] = none := by
  decide +kernel

/-! ### C18 -/

/-- **C18, check value** (partial: this half of C18 holds).  With the check enabled every
message delivered, from any input whatever, had a correct check value in front of the
separator. -/
theorem C18_only_checked_partial (c : Cfg) (hc : c.crc = true) (line : List UInt8) : ∀ (s : Rx) (s' : Rx) (ms),
    s.complete = false → run c s line = some (s', ms) →
    ∀ m ∈ ms, m ≠ [] ∧ ∃ a b, Crc.crc16 0 (m ++ [a, b]) = 0 := by
  have hst : ∀ (s s' : Rx) b, s.complete = false → store c s b = some s' → s'.complete = false := by
    intro s s' b h e
    unfold store at e
    repeat' split at e
    all_goals simp at e
    all_goals rw [← e]; exact h
  have hb : ∀ (s s' : Rx) b, s.complete = false → rxByte c s b = some s' → s'.complete = true →
      s'.rd ≠ [] ∧ ∃ x y, Crc.crc16 0 (s'.rd ++ [x, y]) = 0 := by
    intro s s' b h e ht
    unfold rxByte at e
    simp only [hc, if_true] at e
    repeat' split at e
    all_goals first
      | (have := hst _ _ _ (by exact h) e; simp [this] at ht; done)
      | (simp at e; rw [← e] at ht; simp [h] at ht; done)
      | skip
    rename_i hlen hcrc
    simp only [Option.some.injEq] at e
    rw [← e]
    simp only
    have hl : 2 < s.rd.length := by simpa using hlen
    have hcrc : Crc.crc16 0 s.rd = 0 := by simpa using hcrc
    refine ⟨?_, s.rd[s.rd.length - 2]'(by omega), s.rd[s.rd.length - 1]'(by omega), ?_⟩
    · intro h0
      have := congrArg List.length h0
      simp at this; omega
    · have : s.rd.take (s.rd.length - 2) ++ [s.rd[s.rd.length - 2]'(by omega), s.rd[s.rd.length - 1]'(by omega)]
          = s.rd := by
        have h1 : s.rd.drop (s.rd.length - 2) =
            [s.rd[s.rd.length - 2]'(by omega), s.rd[s.rd.length - 1]'(by omega)] := by
          rw [List.drop_eq_getElem_cons (by omega), List.drop_eq_getElem_cons (by omega)]
          simp only [show s.rd.length - 2 + 1 = s.rd.length - 1 by omega]
          rw [List.drop_of_length_le (by omega)]
        rw [← h1, List.take_append_drop]
      rw [this]; exact hcrc
  induction line with
  | nil => intro s s' ms _ e; simp [run] at e; simp [e.2]
  | cons b line ih =>
    intro s s' ms h e m hm
    simp only [run, Option.bind_eq_bind, Option.bind_eq_some_iff] at e
    obtain ⟨s1, e1, ⟨s2, l2⟩, e2, e3⟩ := e
    simp at e3
    rw [← e3.2, List.mem_append] at hm
    rcases hm with hm | hm
    · unfold out at hm
      split at hm
      · rename_i hcomp
        simp at hm
        subst hm
        exact hb s s1 b h e1 hcomp
      · simp at hm
    · exact ih _ _ _ (out_complete s1) e2 m hm

/-- Noise that the receiver can tell from separators: bytes other than 254, and pairs
254 `x` with `x` not 1. -/
inductive Noise : List UInt8 → Prop where
  | nil : Noise []
  | byte (b tl) : b ≠ 254 → Noise tl → Noise (b :: tl)
  | cmd (b tl) : b ≠ 1 → Noise tl → Noise (254 :: b :: tl)

/-- **C18, noise before the first separator** (partial: noise inside a message is not
survived, see below).  Any such noise on a fresh line, then a good stream: all messages are
delivered. -/
theorem C18_initial_noise_partial (c : Cfg) (noise : List UInt8) (hn : Noise noise) (ms : List (List UInt8))
    (h : ∀ m ∈ ms, m ≠ [] ∧ (body c.crc m).length ≤ c.limit ∧ (body c.crc m).length ≤ c.rcap) :
    run c {} (noise ++ stream c.crc ms) = some (clean, ms) := by
  have : run c {} noise = some ({}, []) := by
    induction hn with
    | nil => rfl
    | byte b tl hb _ ih => simp [run, rxByte, hb, store, out, ih]
    | cmd b tl hb _ ih =>
      by_cases h0 : b = 0
      · simp [run, rxByte, h0, store, out, ih]
      · simp [run, rxByte, hb, h0, out, ih]
  rw [run_append, this]
  simp [run_stream c ms h]

theorem crc_inj (d : List UInt8) (a b : UInt16) (h : Crc.crc16 a d = Crc.crc16 b d) : a = b := by
  have h1 := Crc.crc16_bits d a
  have h2 := Crc.crc16_bits d b
  rw [h, h2] at h1
  have := Crc.regRun_inj _ _ _ (by simp) (by simp) h1
  exact (Crc.C11_value_unique _ _).1 this.symm

/-- The receiver after a failed message: stuck with bytes it never discards. -/
def Stuck (c : Cfg) (s : Rx) : Prop :=
  s.inCmd = false ∧ s.complete = false ∧
    ((s.inMsg = true ∧ Crc.crc16 0 s.rd ≠ 0) ∨ c.limit ≤ s.rd.length)

theorem run_nomsg (c : Cfg) (d : List UInt8) : ∀ s : Rx, s.inMsg = false → s.inCmd = false → s.complete = false →
    run c s (escape d) = some (s, []) := by
  induction d with
  | nil => intro s _ _ _; simp [escape, run]
  | cons b d ih =>
    intro s h1 h2 h3
    rw [escape_cons, run_append]
    have : run c s (if b = 254 then [254, 0] else [b]) = some (s, []) := by
      obtain ⟨ic, im, cp, rd⟩ := s
      simp only at h1 h2 h3
      subst h1 h2 h3
      split
      · simp [run, rxByte, store, out]
      · rename_i hb; simp [run, rxByte, store, out, hb]
    rw [this]
    simp [ih s h1 h2 h3]

/-- In a message: either all bytes are stored or the limit is hit. -/
theorem run_stuck_body (c : Cfg) (d : List UInt8) : ∀ s s' : Rx, ∀ l, s.inMsg = true → s.inCmd = false →
    s.complete = false → run c s (escape d) = some (s', l) → l = [] ∧ s'.inCmd = false ∧ s'.complete = false ∧
      ((s'.inMsg = true ∧ s'.rd = s.rd ++ d) ∨ (s'.inMsg = false ∧ c.limit ≤ s'.rd.length)) ∧
      (d ≠ [] → c.limit ≤ s.rd.length → s'.inMsg = false) := by
  induction d with
  | nil =>
    intro s s' l h1 h2 h3 e
    simp [escape, run] at e
    obtain ⟨rfl, rfl⟩ := e
    exact ⟨rfl, h2, h3, Or.inl ⟨h1, by simp⟩, by simp⟩
  | cons b d ih =>
    intro s s' l h1 h2 h3 e
    rw [escape_cons, run_append] at e
    have hone : run c s (if b = 254 then [254, 0] else [b]) = (store c s b).map (fun s => (s, [])) := by
      obtain ⟨ic, im, cp, rd⟩ := s
      simp only at h1 h2 h3
      subst h1 h2 h3
      split
      · rename_i hb; subst hb
        simp only [run, rxByte, store, out]
        by_cases ha : rd.length ≥ c.limit
        · simp [ha]
        · by_cases hb : rd.length < c.rcap <;> simp [ha, hb]
      · rename_i hb
        simp only [run, rxByte, store, out, hb]
        by_cases ha : rd.length ≥ c.limit
        · simp [ha]
        · by_cases hb : rd.length < c.rcap <;> simp [ha, hb]
    rw [hone] at e
    unfold store at e
    simp only [h1, Bool.not_true, Bool.false_eq_true, if_false] at e
    split at e
    · rename_i hl
      simp only [Option.map_some, Option.bind_eq_bind, Option.bind_some] at e
      rw [run_nomsg c d { s with inMsg := false } rfl h2 h3] at e
      simp at e
      obtain ⟨rfl, rfl⟩ := e
      exact ⟨rfl, h2, h3, Or.inr ⟨rfl, hl⟩, fun _ _ => rfl⟩
    · rename_i hl
      split at e
      · simp only [Option.map_some, Option.bind_eq_bind, Option.bind_some] at e
        cases e2 : run c { s with inMsg := true, rd := s.rd ++ [b] } (escape d) with
        | none => simp [e2] at e
        | some p =>
          obtain ⟨s2, l2⟩ := p
          simp [e2] at e
          obtain ⟨rfl, rfl⟩ := e
          obtain ⟨a1, a2, a3, a4, a5⟩ := ih { s with inMsg := true, rd := s.rd ++ [b] } s2 l2 rfl h2 h3 e2
          refine ⟨a1, a2, a3, ?_, fun _ h => absurd h (by omega)⟩
          simpa using a4
      · simp at e

theorem run_stuck_frame (c : Cfg) (hc : c.crc = true) (m : List UInt8) (hm : m ≠ []) (s s' : Rx) (l)
    (h : Stuck c s) (e : run c s (frame true m) = some (s', l)) : l = [] ∧ Stuck c s' := by
  have hbody : body true m ≠ [] := by simp [body, Crc.msgdelimFrame]
  have hcrc : Crc.crc16 0 (body true m) = 0 := by
    have := Crc.C12_msgdelim_accepts m hm
    simp only [Crc.msgdelimCheck, Bool.and_eq_true, decide_eq_true_eq] at this
    simpa [body] using this.2
  obtain ⟨h1, h2, h3⟩ := h
  rw [frame, run_append] at e
  cases e1 : run c s (escape (body true m)) with
  | none => simp [e1] at e
  | some p =>
    obtain ⟨s1, l1⟩ := p
    simp only [e1, Option.bind_eq_bind, Option.bind_some] at e
    -- after the body: either everything was kept after the stale bytes, or not in a message
    have key : l1 = [] ∧ s1.inCmd = false ∧ s1.complete = false ∧
        ((s1.inMsg = true ∧ Crc.crc16 0 s1.rd ≠ 0) ∨ (s1.inMsg = false ∧ c.limit ≤ s1.rd.length)) := by
      by_cases him : s.inMsg = true
      · obtain ⟨a1, a2, a3, a4, a5⟩ := run_stuck_body c _ s s1 l1 him h1 h2 e1
        refine ⟨a1, a2, a3, ?_⟩
        rcases a4 with ⟨b1, b2⟩ | b
        · left
          refine ⟨b1, ?_⟩
          rcases h3 with ⟨_, h3⟩ | h3
          · intro h0
            rw [b2, show Crc.crc16 0 (s.rd ++ body true m) = Crc.crc16 (Crc.crc16 0 s.rd) (body true m) by
              simp [Crc.crc16]] at h0
            exact h3 (crc_inj _ _ _ (h0.trans hcrc.symm))
          · have := a5 hbody h3; rw [this] at b1; simp at b1
        · exact Or.inr b
      · have him : s.inMsg = false := by simpa using him
        rw [run_nomsg c _ s him h1 h2] at e1
        simp at e1
        obtain ⟨rfl, rfl⟩ := e1
        refine ⟨rfl, h1, h2, Or.inr ⟨him, ?_⟩⟩
        rcases h3 with ⟨h3, _⟩ | h3
        · rw [him] at h3; simp at h3
        · exact h3
    obtain ⟨rfl, k2, k3, k4⟩ := key
    obtain ⟨ic, im, cp, rd⟩ := s1
    simp only at k2 k3 k4
    subst k2 k3
    rcases k4 with ⟨rfl, k4⟩ | ⟨rfl, k4⟩
    · have : rxByte c { inCmd := true, inMsg := true, rd := rd } 1 = some { inMsg := true, rd := rd } := by
        simp [rxByte, hc, k4]
      simp [run, rxByte, out, hc, k4] at e
      obtain ⟨rfl, rfl⟩ := e
      exact ⟨rfl, rfl, rfl, Or.inl ⟨rfl, k4⟩⟩
    · simp [run, rxByte, out] at e
      obtain ⟨rfl, rfl⟩ := e
      exact ⟨rfl, rfl, rfl, Or.inr k4⟩

/-- **C18 is violated, for good**: after one message whose check value is wrong, no later
correct message is ever delivered, whatever the messages and however many follow. -/
theorem C18_never_recovers_violated (c : Cfg) (hc : c.crc = true) (bad : List UInt8)
    (hbad : Crc.crc16 0 bad ≠ 0) (h1 : bad.length ≤ c.limit) (h2 : bad.length ≤ c.rcap)
    (ms : List (List UInt8)) (hms : ∀ m ∈ ms, m ≠ []) (s : Rx) (got : List (List UInt8))
    (e : run c {} ([254, 1] ++ (escape bad ++ [254, 1]) ++ ms.flatMap (frame true)) = some (s, got)) : got = [] := by
  have e0 : run c {} ([254, 1] ++ (escape bad ++ [254, 1])) = some ({ inMsg := true, rd := bad }, []) := by
    have a : run c {} [254, 1] = some (clean, []) := by simp [run, rxByte, out, clean]
    rw [run_append, a]
    simp only [Option.bind_eq_bind, Option.bind_some]
    rw [run_append, run_escape c bad clean rfl rfl rfl (by simpa [clean] using h1) (by simpa [clean] using h2)]
    simp [run, rxByte, out, clean, hc, hbad]
  rw [run_append, e0] at e
  simp only [Option.bind_eq_bind, Option.bind_some, Option.bind_eq_some_iff] at e
  obtain ⟨⟨s2, l2⟩, e2, e3⟩ := e
  simp at e3
  have hst : Stuck c { inMsg := true, rd := bad } := ⟨rfl, rfl, Or.inl ⟨rfl, hbad⟩⟩
  rw [← e3.2]
  clear e3 e0
  generalize ({ inMsg := true, rd := bad } : Rx) = s0 at hst e2
  induction ms generalizing s0 s2 l2 with
  | nil => simp [run] at e2; exact e2.2
  | cons m ms ih =>
    rw [List.flatMap_cons, run_append] at e2
    cases em : run c s0 (frame true m) with
    | none => simp [em] at e2
    | some p =>
      obtain ⟨s3, l3⟩ := p
      simp only [em, Option.bind_eq_bind, Option.bind_some, Option.bind_eq_some_iff] at e2
      obtain ⟨⟨s4, l4⟩, e4, e5⟩ := e2
      simp at e5
      obtain ⟨rfl, hst'⟩ := run_stuck_frame c hc m (hms m (by simp)) s0 s3 l3 hst em
      rw [← e5.2, List.nil_append]
      exact ih (fun m hm => hms m (by simp [hm])) s4 l4 s3 hst' e4

/-- One flipped bit in the first of three messages: nothing arrives. -/
example : (run (Cfg.alloc 20 20 true) {} (stream true [[1, 2, 3], [4], [5]])).map (·.2) = some [[1, 2, 3], [4], [5]] ∧
    (run (Cfg.alloc 20 20 true) {} ([254, 1, 0] ++ (stream true [[1, 2, 3], [4], [5]]).drop 3)).map (·.2) = some [] := by
  decide +kernel

end Gensio.Msgdelim
