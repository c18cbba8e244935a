import Verif.Model.Kiss
/-!
# KISS layer: C19, C20, C52, C53
-/
namespace Gensio.Kiss

/-! ### What the line shall carry, independent of the code -/

/-- c0 is sent as db dc, db as db dd. -/
def escape (d : List UInt8) : List UInt8 :=
  d.flatMap fun b => if b = 0xc0 then [0xdb, 0xdc] else if b = 0xdb then [0xdb, 0xdd] else [b]

/-- A data frame for a port. -/
def frame (f : UInt8 × List UInt8) : List UInt8 := [(0xc0 : UInt8)] ++ escape ((f.1 <<< 4) :: f.2) ++ [0xc0]

theorem escape_cons (b : UInt8) (d : List UInt8) : escape (b :: d) = escape [b] ++ escape d := by simp [escape]
theorem escape_append (a b : List UInt8) : escape (a ++ b) = escape a ++ escape b := by simp [escape]
theorem escape_one (b : UInt8) : (escape [b]).length ≤ 2 := by
  simp only [escape, List.flatMap_cons, List.flatMap_nil, List.append_nil]; repeat' split
  all_goals simp
theorem escape_length (d : List UInt8) : (escape d).length ≤ 2 * d.length := by
  induction d with
  | nil => simp [escape]
  | cons b d ih => rw [escape_cons]; have := escape_one b; simp; omega

/-! ### The receiver, delivering at once -/

/-- The packet handed up when complete, and the state after it. -/
def out (c : Cfg) (s : Rx) : Rx × List (UInt8 × List UInt8) :=
  if s.complete then
    match s.rd with
    | [] => (s, [])
    | h :: tl =>
      if h &&& 0xf ≠ 0 ∨ c.tncs (h >>> 4) = false then
        ({ s with tnc := h >>> 4, complete := false, rd := [], inEsc := false }, [])
      else ({ s with tnc := h >>> 4, complete := false, rd := [], started := false }, [(h >>> 4, tl)])
  else (s, [])

def run (c : Cfg) (s : Rx) : List UInt8 → Rx × List (UInt8 × List UInt8)
  | [] => (s, [])
  | b :: bs =>
    let o := out c (rxByte c s b)
    let r := run c o.1 bs
    (r.1, o.2 ++ r.2)

/-- Between calls of the line reader: not complete, and nothing started. -/
def Open (s : Rx) : Prop := s.complete = false ∧ s.started = false

theorem rxByte_open (c : Cfg) (s : Rx) (b : UInt8) (h : Open s) :
    (rxByte c s b).started = false ∧ ((rxByte c s b).complete = true → (rxByte c s b).rd ≠ [] ∧
      (rxByte c s b).inEsc = false ∧ (rxByte c s b).bad = false) := by
  obtain ⟨h1, h2⟩ := h
  unfold rxByte store
  simp only []
  repeat' split
  all_goals simp_all

theorem out_open (c : Cfg) (s : Rx) (h1 : s.started = false) (h2 : s.complete = true → s.rd ≠ []) :
    Open (out c s).1 := by
  unfold out
  split
  · rename_i hc
    split
    · rename_i hn; exact absurd hn (h2 hc)
    · split <;> exact ⟨rfl, by simp [h1]⟩
  · rename_i hc; exact ⟨by simpa using hc, h1⟩

theorem step_open (c : Cfg) (s : Rx) (b : UInt8) (h : Open s) : Open (out c (rxByte c s b)).1 := by
  obtain ⟨a, b'⟩ := rxByte_open c s b h
  exact out_open c _ a (fun hc => (b' hc).1)

theorem run_append (c : Cfg) (a : List UInt8) : ∀ (b : List UInt8) (s : Rx),
    run c s (a ++ b) = ((run c (run c s a).1 b).1, (run c s a).2 ++ (run c (run c s a).1 b).2) := by
  induction a with
  | nil => intro b s; simp [run]
  | cons x a ih => intro b s; simp [run, ih]

theorem run_open (c : Cfg) (line : List UInt8) : ∀ s, Open s → Open (run c s line).1 := by
  induction line with
  | nil => intro s h; exact h
  | cons b line ih => intro s h; exact ih _ (step_open c s b h)

theorem out_of_open {c : Cfg} {s : Rx} (h : s.complete = false) : out c s = (s, []) := by simp [out, h]

theorem rxLoop_spec (c : Cfg) (buf : List UInt8) : ∀ s, Open s →
    (rxLoop c s buf).2 ≤ buf.length ∧ run c s (buf.take (rxLoop c s buf).2) = out c (rxLoop c s buf).1 ∧
      (rxLoop c s buf).1.started = false ∧ ((rxLoop c s buf).1.complete = true → (rxLoop c s buf).1.rd ≠ []) ∧
      (buf ≠ [] → 0 < (rxLoop c s buf).2) := by
  induction buf with
  | nil => intro s h; simp [rxLoop, run, out_of_open h.1, h.2, h.1]
  | cons b buf ih =>
    intro s h
    have hb := rxByte_open c s b h
    simp only [rxLoop, h.1, Bool.false_eq_true, if_false]
    by_cases hc : (rxByte c s b).complete = true
    · have e : rxLoop c (rxByte c s b) buf = (rxByte c s b, 0) := by cases buf <;> simp [rxLoop, hc]
      rw [e]
      simp [run, hb.1, hb.2 hc]
    · have hc : (rxByte c s b).complete = false := by simpa using hc
      obtain ⟨h1, h2, h3, h4, _⟩ := ih (rxByte c s b) ⟨hc, hb.1⟩
      refine ⟨by simp; omega, ?_, h3, h4, by simp⟩
      simp [run, out_of_open hc, h2]

/-! ### Feeding a receiver -/

/-- State of a receiver with what its user got: whole packets and the part of the next. -/
structure Log where
  rx : Rx := {}
  msgs : List (UInt8 × List UInt8) := []
  part : List UInt8 := []
deriving DecidableEq, Repr

def Log.call (c : Cfg) (l : Log) (buf : List UInt8) (acc : Nat) : Option (Log × Nat) := do
  let (s, n, ev) ← llWrite c l.rx buf acc
  match ev with
  | none => some ({ l with rx := s }, n)
  | some (t, d, true) => some ({ rx := s, msgs := l.msgs ++ [(t, l.part ++ d)], part := [] }, n)
  | some (_, d, false) => some ({ l with rx := s, part := l.part ++ d }, n)

def feed (c : Cfg) (l : Log) (line : List UInt8) : List (Nat × Nat) → Option (Log × List UInt8)
  | [] => some (l, line)
  | (n, acc) :: sched => do
    let (l, k) ← l.call c (line.take n) acc
    feed c l (line.drop k) sched

/-- Waiting packet counted as delivered. -/
def Log.virt (l : Log) : Rx × List (UInt8 × List UInt8) :=
  if l.rx.complete then
    ({ l.rx with complete := false, rd := [], started := false }, l.msgs ++ [(l.rx.tnc, l.part ++ l.rx.rd)])
  else (l.rx, l.msgs)

def Log.ok (l : Log) : Prop := (l.rx.complete = false → l.part = [] ∧ l.rx.started = false) ∧
  (l.rx.complete = true → l.rx.started = true)

theorem virt_open {l : Log} (h : l.ok) : Open l.virt.1 := by
  unfold Log.virt
  split
  · exact ⟨rfl, rfl⟩
  · rename_i hc; have hc : l.rx.complete = false := by simpa using hc
    exact ⟨hc, (h.1 hc).2⟩

theorem call_spec (c : Cfg) (l : Log) (buf : List UInt8) (acc : Nat) (hok : l.ok) :
    ∃ l' n d, l.call c buf acc = some (l', n) ∧ n ≤ buf.length ∧ l'.ok ∧
      run c l.virt.1 (buf.take n) = (l'.virt.1, d) ∧ l'.virt.2 = l.virt.2 ++ d ∧
      (l.rx.complete = false → buf ≠ [] → 0 < n) := by
  by_cases hc : l.rx.complete = true
  · have hs := hok.2 hc
    have e : rxPart c l.rx buf = (l.rx, 0) := by simp [rxPart, hc]
    simp only [Log.call, llWrite, e, hc, if_true, rxStart, hs, Option.bind_eq_bind, Option.bind_some, Bool.not_true,
      Bool.false_eq_true, if_false]
    split
    · refine ⟨_, _, [], rfl, by simp, ⟨by simp, by simp⟩, ?_, ?_, by simp⟩
      · simp [run, Log.virt, hc]
      · simp [Log.virt, hc]
    · refine ⟨_, _, [], rfl, by simp, ⟨by simp [hc], by simp [hs]⟩, ?_, ?_, by simp⟩
      · simp [run, Log.virt, hc]
      · simp [Log.virt, hc]
  · have hc : l.rx.complete = false := by simpa using hc
    obtain ⟨hp, hst⟩ := hok.1 hc
    have hv : l.virt = (l.rx, l.msgs) := by simp [Log.virt, hc]
    rw [hv]
    by_cases hb : buf = []
    · subst hb
      have e : rxPart c l.rx [] = (l.rx, 0) := by simp [rxPart]
      simp only [Log.call, llWrite, e, hc, Bool.false_eq_true, if_false, Option.bind_eq_bind, Option.bind_some]
      exact ⟨_, _, [], rfl, by simp, hok, by simp [run, Log.virt, hc], by simp [Log.virt, hc], by simp⟩
    · have e : rxPart c l.rx buf = rxLoop c l.rx buf := by simp [rxPart, hc, hb]
      obtain ⟨h1, h2, h3, h4, h5⟩ := rxLoop_spec c buf l.rx ⟨hc, hst⟩
      rcases hl : rxLoop c l.rx buf with ⟨s, n⟩
      rw [hl] at h1 h2 h3 h4 h5 e
      simp only at h1 h2 h3 h4 h5
      simp only [Log.call, llWrite, e, Option.bind_eq_bind, Option.bind_some]
      by_cases hcs : s.complete = true
      · simp only [hcs, if_true]
        cases hrd : s.rd with
        | nil => exact absurd hrd (h4 hcs)
        | cons h tl =>
          simp only [rxStart, h3, Bool.false_eq_true, if_false, hrd, out, hcs, if_true] at h2 ⊢
          by_cases hdrop : h &&& 0xf ≠ 0 ∨ c.tncs (h >>> 4) = false
          · rw [if_pos hdrop] at h2
            simp only [if_pos hdrop, Option.bind_some, Bool.not_false, if_true]
            refine ⟨_, _, [], rfl, h1, ⟨fun _ => ⟨hp, rfl⟩, by simp⟩, ?_, ?_, fun _ => h5⟩
            · rw [h2]; simp [Log.virt]
            · simp [Log.virt]
          · rw [if_neg hdrop] at h2
            simp only [if_neg hdrop, Option.bind_some, hcs, Bool.not_true, Bool.false_eq_true, if_false]
            split
            · refine ⟨_, _, [(h >>> 4, tl)], rfl, h1, ⟨fun _ => ⟨rfl, rfl⟩, by simp⟩, ?_, ?_, fun _ => h5⟩
              · rw [h2]; simp [Log.virt]
              · simp [Log.virt, hp]
            · refine ⟨_, _, [(h >>> 4, tl)], rfl, h1, ⟨by simp [hcs], by simp⟩, ?_, ?_, fun _ => h5⟩
              · rw [h2]; simp [Log.virt, hcs]
              · simp [Log.virt, hcs, hp]
      · have hcs : s.complete = false := by simpa using hcs
        simp only [hcs, Bool.false_eq_true, if_false, Option.bind_some, out] at h2 ⊢
        exact ⟨_, _, [], rfl, h1, ⟨fun _ => ⟨hp, h3⟩, by simp [hcs]⟩, by rw [h2]; simp [Log.virt, hcs],
          by simp [Log.virt, hcs], fun _ => h5⟩

theorem feed_spec (c : Cfg) (sched : List (Nat × Nat)) : ∀ (l : Log) (line : List UInt8), l.ok →
    ∃ l' used rest d, feed c l line sched = some (l', rest) ∧ l'.ok ∧ line = used ++ rest ∧
      run c l.virt.1 used = (l'.virt.1, d) ∧ l'.virt.2 = l.virt.2 ++ d := by
  induction sched with
  | nil => intro l line h; exact ⟨l, [], line, [], rfl, h, by simp, rfl, by simp⟩
  | cons x sched ih =>
    intro l line h
    obtain ⟨n, acc⟩ := x
    obtain ⟨l1, k, d1, e1, hk, h1, hrun, hd1, _⟩ := call_spec c l (line.take n) acc h
    rw [List.take_take, Nat.min_eq_left (by simp at hk; omega)] at hrun
    obtain ⟨l2, used, rest, d2, e2, h2, hline, hrun2, hd2⟩ := ih l1 (line.drop k) h1
    refine ⟨l2, line.take k ++ used, rest, d1 ++ d2, by simp [feed, e1, e2], h2, ?_, ?_, ?_⟩
    · rw [List.append_assoc, ← hline, List.take_append_drop]
    · rw [run_append, hrun, hrun2]
    · rw [hd2, hd1, List.append_assoc]

/-! ### The receiver on frames -/

theorem run_escape (c : Cfg) (d : List UInt8) : ∀ s : Rx, Open s → s.inEsc = false → s.bad = false →
    s.rd.length + d.length ≤ c.maxRead → run c s (escape d) = ({ s with rd := s.rd ++ d }, []) := by
  induction d with
  | nil => intro s _ _ _ _; simp [escape, run]
  | cons b d ih =>
    intro s h h1 h2 h3
    simp only [List.length_cons] at h3
    obtain ⟨g1, g2⟩ := h
    obtain ⟨ie, bd, cp, st, tn, rd⟩ := s
    simp only at g1 g2 h1 h2 h3
    subst g1 g2 h1 h2
    have hone : run c { tnc := tn, rd := rd } (escape [b]) = ({ tnc := tn, rd := rd ++ [b] }, []) := by
      have hl : ¬ c.maxRead ≤ rd.length := by omega
      by_cases hb : b = 0xc0
      · subst hb; simp [escape, run, rxByte, store, out, hl]
      · by_cases hb2 : b = 0xdb
        · subst hb2; simp [escape, run, rxByte, store, out, hl]
        · simp [escape, run, rxByte, store, out, hl, hb, hb2]
    rw [escape_cons, run_append, hone]
    simp only
    rw [ih { tnc := tn, rd := rd ++ [b] } ⟨rfl, rfl⟩ rfl rfl (by simp; omega)]
    simp

/-- Between frames. -/
def Clean (s : Rx) : Prop := Open s ∧ s.inEsc = false ∧ s.bad = false ∧ s.rd = []

theorem shift_and (t : UInt8) : (t <<< 4) &&& 0xf = 0 := by
  have h : ∀ i : Fin 256, (UInt8.ofNat i.val <<< 4) &&& 0xf = 0 := by decide +kernel
  simpa using h ⟨t.toNat, t.toNat_lt⟩
theorem shift_shift (t : UInt8) (h : t < 16) : (t <<< 4) >>> 4 = t := by
  have hh : ∀ i : Fin 256, UInt8.ofNat i.val < 16 → (UInt8.ofNat i.val <<< 4) >>> 4 = UInt8.ofNat i.val := by decide +kernel
  have := hh ⟨t.toNat, t.toNat_lt⟩
  simp only [UInt8.ofNat_toNat] at this
  exact this h

/-- A frame end leaves the receiver clean, whatever came before. -/
theorem run_end (c : Cfg) (s : Rx) (h : Open s) : Clean (run c s [0xc0]).1 := by
  obtain ⟨g1, g2⟩ := h
  obtain ⟨ie, bd, cp, st, tn, rd⟩ := s
  simp only at g1 g2
  subst g1 g2
  cases bd
  · cases rd with
    | nil => simp [run, rxByte, out, Clean, Open]
    | cons x tl =>
      simp only [run, rxByte, out]
      by_cases hx : x &&& 0xf ≠ 0 ∨ c.tncs (x >>> 4) = false
      · simp only [Bool.false_eq_true, if_false, if_true, ne_eq, reduceCtorEq, not_false_eq_true, if_pos hx]
        exact ⟨⟨rfl, rfl⟩, rfl, rfl, rfl⟩
      · simp only [Bool.false_eq_true, if_false, if_true, ne_eq, reduceCtorEq, not_false_eq_true, if_neg hx]
        exact ⟨⟨rfl, rfl⟩, rfl, rfl, rfl⟩
  · simp [run, rxByte, out, Clean, Open]

theorem run_end_clean (c : Cfg) (s : Rx) (h : Clean s) : run c s [0xc0] = (s, []) := by
  obtain ⟨⟨g1, g2⟩, g3, g4, g5⟩ := h
  obtain ⟨ie, bd, cp, st, tn, rd⟩ := s
  simp only at g1 g2 g3 g4 g5
  subst g1 g2 g3 g4 g5
  simp [run, rxByte, out]

theorem run_body (c : Cfg) (t : UInt8) (d : List UInt8) (ht : t < 16) (hc : c.tncs t = true)
    (hd : d.length < c.maxRead) (s : Rx) (h : Clean s) :
    Clean (run c s (escape ((t <<< 4) :: d) ++ [0xc0])).1 ∧ (run c s (escape ((t <<< 4) :: d) ++ [0xc0])).2 = [(t, d)] := by
  have h' := h
  obtain ⟨⟨g1, g2⟩, g3, g4, g5⟩ := h'
  rw [run_append, run_escape c _ s ⟨g1, g2⟩ g3 g4 (by simp [g5]; omega), g5]
  refine ⟨run_end c _ ⟨g1, g2⟩, ?_⟩
  have := shift_and t
  have h3 := shift_shift t ht
  simp [run, rxByte, g4, out, this, h3, hc]

/-- A frame to deliver: port known, type byte and data within the read size. -/
def Ok (c : Cfg) (f : UInt8 × List UInt8) : Prop := f.1 < 16 ∧ c.tncs f.1 = true ∧ f.2.length < c.maxRead

theorem run_frames (c : Cfg) (fs : List (UInt8 × List UInt8)) (h : ∀ f ∈ fs, Ok c f) : ∀ s, Clean s →
    Clean (run c s (fs.flatMap frame)).1 ∧ (run c s (fs.flatMap frame)).2 = fs := by
  induction fs with
  | nil => intro s hs; exact ⟨hs, rfl⟩
  | cons f fs ih =>
    intro s hs
    obtain ⟨a, b, d⟩ := h f (by simp)
    rw [List.flatMap_cons, frame, List.append_assoc, List.append_assoc, run_append, run_end_clean c s hs,
      ← List.append_assoc, run_append]
    obtain ⟨c1, c2⟩ := run_body c f.1 f.2 a b d s hs
    obtain ⟨c3, c4⟩ := ih (fun f hf => h f (by simp [hf])) _ c1
    exact ⟨c3, by simp only; rw [c2, c4]; rfl⟩

/-! ### C52 -/

/-- **C52.**  From any state the receiver can be in, after any noise, in any chunks and with a
user taking any amounts: the receiver never leaves its buffer; the frames after the noise are
all delivered in order after whatever the noise amounted to (`pre`), once the line is used up and
nothing waits; before that, what was delivered is a prefix of it. -/
theorem C52_recovers (c : Cfg) (noise : List UInt8) (fs : List (UInt8 × List UInt8)) (hfs : fs ≠ [])
    (h : ∀ f ∈ fs, Ok c f) (sched : List (Nat × Nat)) :
    ∃ pre, ∃ l rest, feed c {} (noise ++ fs.flatMap frame) sched = some (l, rest) ∧
      l.msgs <+: pre ++ fs ∧ (rest = [] → l.rx.complete = false → l.msgs = pre ++ fs) := by
  have h0 : Open ({} : Rx) := ⟨rfl, rfl⟩
  have hall : ∃ pre, (run c {} (noise ++ fs.flatMap frame)).2 = pre ++ fs := by
    cases fs with
    | nil => exact absurd rfl hfs
    | cons f fs =>
      have hopen := run_open c noise {} h0
      have hcl := run_end c _ hopen
      obtain ⟨a, b, d⟩ := h f (by simp)
      obtain ⟨c1, c2⟩ := run_body c f.1 f.2 a b d _ hcl
      obtain ⟨c3, c4⟩ := run_frames c fs (fun f hf => h f (by simp [hf])) _ c1
      refine ⟨(run c {} noise).2 ++ (run c (run c {} noise).1 [0xc0]).2, ?_⟩
      rw [run_append, List.flatMap_cons, frame, List.append_assoc, List.append_assoc, run_append, ← List.append_assoc,
        run_append]
      simp only
      rw [c2, c4]; simp
  obtain ⟨pre, hpre⟩ := hall
  have hv : ({} : Log).virt = ({}, []) := by simp [Log.virt]
  obtain ⟨l, used, rest, d, e, hok, hline, hrun, hd⟩ := feed_spec c sched {} (noise ++ fs.flatMap frame)
    ⟨fun _ => ⟨rfl, rfl⟩, by simp⟩
  rw [hv] at hrun hd
  simp only [List.nil_append] at hd
  rw [hline, run_append, hrun] at hpre
  simp only at hpre
  refine ⟨pre, l, rest, e, ?_, ?_⟩
  · rw [← hpre, ← hd]
    unfold Log.virt
    split
    · simp [List.append_assoc]
    · simp
  · rintro rfl hc
    simp [run] at hpre
    rw [← hpre, ← hd]
    simp [Log.virt, hc]

/-- Noise ending in the middle of a frame, with an escape pending. -/
example : (feed (Cfg.alloc 300 300 fun _ => true) {} ([1, 2, 0xdb] ++ [((3 : UInt8), [0xc0, 0xdb]), (12, [7])].flatMap frame)
    [(4, 9), (9, 9), (9, 9), (9, 9), (20, 9)]).map (fun x => (x.1.msgs, x.2))
    = some ([(3, [0xc0, 0xdb]), (12, [7])], []) := by decide +kernel

/-! ### C19 -/

theorem addByte_ok {c : Cfg} {w : List UInt8} {b : UInt8} (h : w.length + 2 ≤ c.wcap) :
    addByte c w b = some (w ++ escape [b]) := by
  have h1 : w.length < c.wcap := by omega
  have h2 : w.length + 1 < c.wcap := by omega
  by_cases hb : b = 0xc0
  · simp [addByte, put, hb, escape, h1, h2]
  · by_cases hb2 : b = 0xdb
    · simp [addByte, put, hb2, escape, h1, h2]
    · simp [addByte, put, hb, hb2, escape, h1]

theorem addData_ok (c : Cfg) (d : List UInt8) : ∀ (w : List UInt8) (u : Nat),
    w.length + 2 * (min d.length (c.maxWrite - u)) ≤ c.wcap →
    addData c w u d = some (w ++ escape (d.take (c.maxWrite - u)), u + min d.length (c.maxWrite - u)) := by
  induction d with
  | nil => intro w u _; simp [addData, escape]
  | cons b d ih =>
    intro w u h2
    simp only [List.length_cons] at h2
    have hl := escape_one b
    unfold addData
    split
    · rename_i hu
      have : c.maxWrite - u = 0 := by omega
      rw [ih _ _ (by simp [this]; simp [this] at h2; omega)]
      simp [this]
    · rename_i hu
      obtain ⟨k, hk⟩ : ∃ k, c.maxWrite - u = k + 1 := ⟨c.maxWrite - u - 1, by omega⟩
      rw [addByte_ok (by omega)]
      simp only [Option.bind_eq_bind, Option.bind_some]
      have hk2 : c.maxWrite - (u + 1) = k := by omega
      rw [hk] at h2
      rw [ih _ _ (by rw [hk2]; simp; omega), hk2, hk, List.take_succ_cons, escape_cons b (d.take k)]
      have : u + 1 + min d.length k = u + min (d.length + 1) (k + 1) := by
        rw [Nat.min_def, Nat.min_def]; split <;> split <;> omega
      simp [this]

/-- Sends: port, data, bytes the lower layer takes. -/
def sends (c : Cfg) (t : Tx) : List (UInt8 × List UInt8 × Nat) →
    Option (Tx × List UInt8 × List (UInt8 × List UInt8))
  | [] => some (t, [], [])
  | (p, d, acc) :: ops => do
    let (t, n, w) ← ulWrite c t p d acc
    let (t, w2, ms) ← sends c t ops
    some (t, w ++ w2, (if n = 0 then [] else [(p, d)]) ++ ms)

/-- Idle means nothing left over. -/
def TInv (t : Tx) : Prop := t.ready = false → t = {}

theorem flush_spec (t : Tx) (acc : Nat) (h : t.ready = true) : TInv (flush t acc).1 ∧
    (flush t acc).2 ++ (flush t acc).1.wd.drop (flush t acc).1.wpos = t.wd.drop t.wpos := by
  simp only [flush, h, if_true]
  split
  · exact ⟨fun _ => rfl, by simp⟩
  · refine ⟨by simp [TInv, h], ?_⟩
    simp only
    rw [← List.drop_drop, List.take_append_drop]

theorem ulWrite_spec (mr mw : Nat) (tncs) (t : Tx) (p : UInt8) (d : List UInt8) (acc : Nat) (hd : d ≠ [])
    (hmw : 0 < mw) (h : TInv t) :
    ∃ t' n w, ulWrite (Cfg.alloc mr mw tncs) t p d acc = some (t', n, w) ∧ TInv t' ∧
      ((n = 0 ∧ w ++ t'.wd.drop t'.wpos = t.wd.drop t.wpos) ∨
       (n = d.length ∧ w ++ t'.wd.drop t'.wpos = t.wd.drop t.wpos ++ frame (p, d.take mw))) ∧
      (t.ready = false → n = d.length) := by
  by_cases ht : t.ready = true
  · obtain ⟨h1, h2⟩ := flush_spec t acc ht
    exact ⟨_, _, _, by rw [ulWrite, if_pos ht], h1, Or.inl ⟨rfl, h2⟩, by simp [ht]⟩
  · have ht : t.ready = false := by simpa using ht
    have := h ht
    subst this
    generalize hc : Cfg.alloc mr mw tncs = c
    have hw : c.wcap = (mw + 2) * 2 + 2 := by rw [← hc]; rfl
    have hm : c.maxWrite = mw := by rw [← hc]; rfl
    have hlen : 0 < d.length := by cases d <;> simp at hd ⊢
    have e1 : put c [] 0xc0 = some [0xc0] := by rw [put, if_pos (by simp; omega)]; rfl
    have e2 : addByte c [0xc0] (p <<< 4) = some ([(0xc0 : UInt8)] ++ escape [p <<< 4]) := addByte_ok (by simp; omega)
    have ho := escape_one (p <<< 4)
    have e3 := addData_ok c d ([(0xc0 : UInt8)] ++ escape [p <<< 4]) 0 (by simp [hm]; omega)
    have hl := escape_length (d.take mw)
    have e4 : put c ([(0xc0 : UInt8)] ++ escape [p <<< 4] ++ escape (d.take mw)) 0xc0 =
        some ([(0xc0 : UInt8)] ++ escape [p <<< 4] ++ escape (d.take mw) ++ [0xc0]) := by
      rw [put, if_pos (by simp at hl ⊢; omega)]
    rw [Nat.sub_zero, hm] at e3
    have hfr : [(0xc0 : UInt8)] ++ escape [p <<< 4] ++ escape (d.take mw) ++ [0xc0] = frame (p, d.take mw) := by
      simp only [frame]; rw [escape_cons (p <<< 4) (d.take mw)]; simp
    simp only [ulWrite, Bool.false_eq_true, if_false, e1, e2, e3, Option.bind_eq_bind, Option.bind_some]
    rw [if_pos (by omega), e4]
    obtain ⟨h1, h2⟩ := flush_spec
      { wd := [(0xc0 : UInt8)] ++ escape [p <<< 4] ++ escape (d.take mw) ++ [0xc0], wpos := 0,
        upos := 0 + min d.length mw, ready := true } acc rfl
    refine ⟨_, _, _, rfl, h1, Or.inr ⟨rfl, ?_⟩, fun _ => rfl⟩
    rw [h2, hfr]; simp

theorem sends_spec (mr mw : Nat) (tncs) (hmw : 0 < mw) (ops : List (UInt8 × List UInt8 × Nat))
    (h : ∀ o ∈ ops, o.2.1 ≠ []) : ∀ t0, TInv t0 →
    ∃ t w ms, sends (Cfg.alloc mr mw tncs) t0 ops = some (t, w, ms) ∧
      w ++ t.wd.drop t.wpos = t0.wd.drop t0.wpos ++ (ms.map fun f => (f.1, f.2.take mw)).flatMap frame ∧
      ms.Sublist (ops.map fun o => (o.1, o.2.1)) := by
  induction ops with
  | nil => intro t0 _; exact ⟨t0, [], [], rfl, by simp, by simp⟩
  | cons o ops ih =>
    intro t0 ht
    obtain ⟨p, d, acc⟩ := o
    have hd : d ≠ [] := h (p, d, acc) (by simp)
    obtain ⟨t1, n, w1, e1, i1, hcase, _⟩ := ulWrite_spec mr mw tncs t0 p d acc hd hmw ht
    obtain ⟨t, w, ms, e2, e3, e4⟩ := ih (fun o ho => h o (by simp [ho])) t1 i1
    rcases hcase with ⟨rfl, hw⟩ | ⟨rfl, hw⟩
    · refine ⟨t, w1 ++ w, ms, by simp [sends, e1, e2], ?_, List.Sublist.cons _ e4⟩
      rw [List.append_assoc, e3, ← List.append_assoc, hw]
    · refine ⟨t, w1 ++ w, (p, d) :: ms, by simp [sends, e1, e2, hd], ?_, List.Sublist.cons_cons _ e4⟩
      rw [List.append_assoc, e3, ← List.append_assoc, hw]; simp

/-- **C19, sending** (partial: data within the write size; longer data is cut, see C20).
Non-empty writes in any order, the lower layer taking any number of bytes each time: nothing is
stored outside the write buffer, and what was sent plus what waits is exactly the frames
accepted. -/
theorem C19_send_partial (mr mw : Nat) (tncs) (hmw : 0 < mw) (ops : List (UInt8 × List UInt8 × Nat))
    (h : ∀ o ∈ ops, o.2.1 ≠ [] ∧ o.2.1.length ≤ mw) :
    ∃ t w ms, sends (Cfg.alloc mr mw tncs) {} ops = some (t, w, ms) ∧
      w ++ t.wd.drop t.wpos = ms.flatMap frame ∧ ms.Sublist (ops.map fun o => (o.1, o.2.1)) := by
  obtain ⟨t, w, ms, e1, e2, e3⟩ := sends_spec mr mw tncs hmw ops (fun o ho => (h o ho).1) {} (fun _ => rfl)
  refine ⟨t, w, ms, e1, ?_, e3⟩
  rw [e2]
  have : ms.map (fun f => (f.1, f.2.take mw)) = ms := by
    conv => rhs; rw [← List.map_id ms]
    apply List.map_congr_left
    intro f hf
    have := e3.subset hf
    simp only [List.mem_map] at this
    obtain ⟨o, ho, rfl⟩ := this
    simp [List.take_of_length_le, (h o ho).2]
  rw [this]; simp

/-- **C19, receiving.**  Any list of frames with known ports, type byte and data within the read
size, in any chunks, the user taking any amounts: what the user has is a prefix of the frames,
with their ports, and all of them once the line is used up and nothing waits. -/
theorem C19_delivery (c : Cfg) (fs : List (UInt8 × List UInt8)) (h : ∀ f ∈ fs, Ok c f) (sched : List (Nat × Nat)) :
    ∃ l rest, feed c {} (fs.flatMap frame) sched = some (l, rest) ∧
      (∃ more, fs = l.msgs ++ more ∧ (l.part = [] ∨ ∃ p m tl, more = (p, m) :: tl ∧ l.part <+: m)) ∧
      (rest = [] → l.rx.complete = false → l.msgs = fs) := by
  have hcl : Clean ({} : Rx) := ⟨⟨rfl, rfl⟩, rfl, rfl, rfl⟩
  obtain ⟨_, hr⟩ := run_frames c fs h {} hcl
  have hv : ({} : Log).virt = ({}, []) := by simp [Log.virt]
  obtain ⟨l, used, rest, d, e, hok, hline, hrun, hd⟩ := feed_spec c sched {} (fs.flatMap frame)
    ⟨fun _ => ⟨rfl, rfl⟩, by simp⟩
  rw [hv] at hrun hd
  simp only [List.nil_append] at hd
  rw [hline, run_append, hrun] at hr
  simp only at hr
  refine ⟨l, rest, e, ?_, ?_⟩
  · by_cases hc : l.rx.complete = true
    · simp [Log.virt, hc] at hd
      exact ⟨(l.rx.tnc, l.part ++ l.rx.rd) :: (run c l.virt.1 rest).2, by rw [← hr, ← hd]; simp,
        Or.inr ⟨_, _, _, rfl, List.prefix_append _ _⟩⟩
    · have hc : l.rx.complete = false := by simpa using hc
      simp [Log.virt, hc] at hd
      exact ⟨(run c l.virt.1 rest).2, by rw [hd, hr], Or.inl (hok.1 hc).1⟩
  · rintro rfl hc
    simp [run] at hr
    simp [Log.virt, hc] at hd
    rw [hd, hr]

theorem run_bad (c : Cfg) (l : List UInt8) (hl : (0xc0 : UInt8) ∉ l) : ∀ s : Rx, Open s → s.bad = true →
    Open (run c s l).1 ∧ (run c s l).1.bad = true ∧ (run c s l).2 = [] := by
  induction l with
  | nil => intro s h hb; exact ⟨h, hb, rfl⟩
  | cons b l ih =>
    intro s h hb
    have hne : b ≠ 0xc0 := by rintro rfl; simp at hl
    have e : rxByte c s b = store c s b := by simp [rxByte, hne, hb]
    have hst : Open (store c s b) ∧ (store c s b).bad = true := by
      unfold store; split
      · exact ⟨h, rfl⟩
      · exact ⟨h, hb⟩
    have := ih (by simp at hl; exact hl.2) (store c s b) hst.1 hst.2
    simp only [run, e, out_of_open hst.1.1]
    exact ⟨this.1, this.2.1, by rw [this.2.2]; rfl⟩

theorem escape_noc0 (d : List UInt8) : (0xc0 : UInt8) ∉ escape d := by
  simp only [escape, List.mem_flatMap, not_exists, not_and]
  intro b _
  split
  · decide
  · split
    · decide
    · rename_i h _; simp; exact fun e => h e.symm

/-- **C19 fails at the configured size**: with equal read and write sizes a frame of exactly
that many bytes is accepted by the sender and silently dropped by the receiver. -/
theorem C19_max_frame_dropped_violated (c : Cfg) (t : UInt8) (d : List UInt8) (hd : c.maxRead ≤ d.length) :
    (run c {} (frame (t, d))).2 = [] := by
  obtain ⟨d1, x, d2, hsplit, hlen⟩ : ∃ d1 x d2, (t <<< 4) :: d = d1 ++ x :: d2 ∧ d1.length = c.maxRead := by
    refine ⟨((t <<< 4) :: d).take c.maxRead, ((t <<< 4) :: d)[c.maxRead]'(by simp; omega),
      ((t <<< 4) :: d).drop (c.maxRead + 1), ?_, by simp; omega⟩
    rw [← List.drop_eq_getElem_cons, List.take_append_drop]
  have hfull : ∀ (s : Rx), Open s → s.inEsc = false → s.bad = false → s.rd.length = c.maxRead →
      Open (run c s (escape [x])).1 ∧ (run c s (escape [x])).1.bad = true ∧ (run c s (escape [x])).2 = [] := by
    rintro ⟨ie, bd, cp, st, tn, rd⟩ ⟨g1, g2⟩ g3 g4 g5
    simp only at g1 g2 g3 g4 g5
    subst g1 g2 g3 g4
    by_cases hb : x = 0xc0
    · subst hb; simp [escape, run, rxByte, store, out, Open, g5]
    · by_cases hb2 : x = 0xdb
      · subst hb2; simp [escape, run, rxByte, store, out, Open, g5]
      · simp [escape, run, rxByte, store, out, Open, hb, hb2, g5]
  rw [frame, hsplit, List.append_assoc, run_append, run_end_clean c {} ⟨⟨rfl, rfl⟩, rfl, rfl, rfl⟩]
  simp only []
  rw [escape_append, escape_cons x, List.append_assoc, List.append_assoc, run_append, run_escape c d1 {} ⟨rfl, rfl⟩ rfl rfl (by simp; omega)]
  simp only [List.nil_append]
  obtain ⟨k1, k2, k3⟩ := hfull { rd := d1 } ⟨rfl, rfl⟩ rfl rfl hlen
  rw [run_append, k3]
  obtain ⟨j1, j2, j3⟩ := run_bad c (escape d2) (escape_noc0 d2) _ k1 k2
  rw [run_append, j3]
  simp [run, rxByte, j2, out, j1.1]

/-- Port 12, whose type byte is c0 and must be escaped. -/
example : (sends (Cfg.alloc 300 300 fun _ => true) {} [(12, [0xdb, 1], 2), (12, [5], 3), (12, [5], 99), (3, [5], 99)]).map
    (fun x => (x.2.2, x.2.1 == [((12 : UInt8), [0xdb, 1]), (3, [5])].flatMap frame)) = some ([(12, [0xdb, 1]), (3, [5])], true) := by
  decide +kernel

/-! ### C20 -/

/-- **C20** (partial: for writes that are not empty and not longer than the write size).  The
count reported is the number of bytes put in the frame, and the buffer is never overrun. -/
theorem C20_count_partial (mr mw : Nat) (tncs) (hmw : 0 < mw) (t : Tx) (ht : TInv t) (hr : t.ready = false) (p : UInt8)
    (d : List UInt8) (hd : d ≠ []) (hlen : d.length ≤ mw) (acc : Nat) :
    ∃ t' n w, ulWrite (Cfg.alloc mr mw tncs) t p d acc = some (t', n, w) ∧
      w ++ t'.wd.drop t'.wpos = frame (p, d.take n) := by
  obtain ⟨t', n, w, e, _, hcase, hn⟩ := ulWrite_spec mr mw tncs t p d acc hd hmw ht
  have ht0 := ht hr
  subst ht0
  have hn := hn rfl
  refine ⟨t', n, w, e, ?_⟩
  have hlen' : 0 < d.length := by cases d <;> simp at hd ⊢
  rcases hcase with ⟨h0, _⟩ | ⟨_, hw⟩
  · omega
  · rw [hw, hn, List.take_of_length_le hlen, List.take_of_length_le (Nat.le_refl _)]; simp

/-- **C20 is violated** for every longer write: all of it is reported as accepted, the frame
has only the first `max_write_size` bytes. -/
theorem C20_truncated_violated (mr mw : Nat) (tncs) (hmw : 0 < mw) (p : UInt8) (d : List UInt8) (hd : mw < d.length)
    (acc : Nat) :
    ∃ t' w, ulWrite (Cfg.alloc mr mw tncs) {} p d acc = some (t', d.length, w) ∧
      w ++ t'.wd.drop t'.wpos = frame (p, d.take mw) := by
  have hne : d ≠ [] := by intro h; subst h; simp at hd
  obtain ⟨t', n, w, e, _, hcase, hn⟩ := ulWrite_spec mr mw tncs {} p d acc hne hmw (fun _ => rfl)
  have hn := hn rfl
  subst hn
  rcases hcase with ⟨h0, _⟩ | ⟨_, hw⟩
  · omega
  · exact ⟨t', w, e, by simpa using hw⟩

/-- **C20 is violated** by empty writes: each adds two bytes that stay in the buffer, so enough
of them run past its end, whatever the configured size. -/
theorem C20_empty_writes_overrun_violated (mr mw : Nat) (tncs) :
    sends (Cfg.alloc mr mw tncs) {} (List.replicate (mw + 4) (0, [], 9)) = none := by
  generalize hc : Cfg.alloc mr mw tncs = c
  have hw : c.wcap = (mw + 2) * 2 + 2 := by rw [← hc]; rfl
  have key : ∀ (k : Nat) (w : List UInt8), c.wcap < w.length + 2 * k →
      sends c { wd := w } (List.replicate k (0, [], 9)) = none ∨ k = 0 := by
    intro k
    induction k with
    | zero => intro w _; right; rfl
    | succ k ih =>
      intro w h
      left
      rw [List.replicate_succ]
      by_cases h1 : w.length < c.wcap
      · by_cases h2 : w.length + 1 < c.wcap
        · have e : ulWrite c { wd := w } 0 [] 9 = some ({ wd := w ++ [0xc0] ++ [0] }, 0, []) := by
            simp [ulWrite, put, addByte, addData, h1, h2]
          rcases ih (w ++ [0xc0] ++ [0]) (by simp; omega) with h3 | h3
          · simp only [sends, e, Option.bind_eq_bind, Option.bind_some, h3]; rfl
          · subst h3; omega
        · simp [sends, ulWrite, put, addByte, h1, h2]
      · simp [sends, ulWrite, put, h1]
  rcases key (mw + 4) [] (by simp; omega) with h | h
  · exact h
  · omega

/-! ### C53 -/

theorem addByte_noc0 {c : Cfg} {w w' : List UInt8} {b : UInt8} (h : (0xc0 : UInt8) ∉ w) (e : addByte c w b = some w') :
    (0xc0 : UInt8) ∉ w' := by
  have hput : ∀ (w w' : List UInt8) x, (0xc0 : UInt8) ∉ w → x ≠ 0xc0 → put c w x = some w' → (0xc0 : UInt8) ∉ w' := by
    intro w w' x h hx e
    unfold put at e
    split at e
    · simp at e; subst e; simp [h, Ne.symm hx]
    · simp at e
  unfold addByte at e
  split at e
  · simp only [Option.bind_eq_bind, Option.bind_eq_some_iff] at e
    obtain ⟨w1, e1, e2⟩ := e
    exact hput _ _ _ (hput _ _ _ h (by decide) e1) (by decide) e2
  · split at e
    · simp only [Option.bind_eq_bind, Option.bind_eq_some_iff] at e
      obtain ⟨w1, e1, e2⟩ := e
      exact hput _ _ _ (hput _ _ _ h (by decide) e1) (by decide) e2
    · rename_i hb _; exact hput _ _ _ h hb e

/-- **C53 is violated**, for every configuration: the frame marks of the parameter frames are
escaped like data, so what is sent on connect contains no frame mark at all and the TNC
recognises no parameter frame. -/
theorem C53_no_frame_marks_violated (c : Cfg) (p : Parms) (tncs : UInt8 → Bool) (t : Tx)
    (e : connect c (startData p tncs) {} = some t) : (0xc0 : UInt8) ∉ t.wd := by
  have key : ∀ (l w w' : List UInt8), (0xc0 : UInt8) ∉ w → l.foldlM (addByte c) w = some w' → (0xc0 : UInt8) ∉ w' := by
    intro l
    induction l with
    | nil => intro w w' h e; simp at e; rwa [← e]
    | cons b l ih =>
      intro w w' h e
      simp only [List.foldlM_cons, Option.bind_eq_bind, Option.bind_eq_some_iff] at e
      obtain ⟨w1, e1, e2⟩ := e
      exact ih _ _ (addByte_noc0 h e1) e2
  simp only [connect, Option.bind_eq_bind, Option.bind_eq_some_iff, Option.some.injEq] at e
  obtain ⟨w, e1, e2⟩ := e
  rw [← e2]
  exact key _ _ _ (by simp) e1

/-- The default client: 16 bytes of start data, sent with db dc for each mark. -/
example : (connect (Cfg.alloc 1024 1024 (· == 0)) (startData ⟨500, 63, 100, false, none⟩ (· == 0)) {}).map
    (fun t => (t.ready, t.wd.take 8)) = some (true, [0xdb, 0xdc, 1, 50, 0xdb, 0xdc, 0xdb, 0xdc]) := by decide +kernel

/-- **C53 is violated** a second way: with all 16 ports the `unsigned char` length wraps to 0 and
nothing is sent. -/
theorem C53_all_ports_nothing_violated (p : Parms) (h : p.setHardware = none) (c : Cfg) :
    connect c (startData p fun _ => true) {} = some {} := by
  obtain ⟨a, b, d, f, g⟩ := p
  simp only at h
  subst h
  have : (startData ⟨a, b, d, f, none⟩ fun _ => true).2 = 0 := by
    simp only [startData]
    have hlen : ∀ (l : List UInt8) (s : List UInt8 × UInt8), (l.foldl startPut s).2 = s.2 + UInt8.ofNat l.length := by
      intro l
      induction l with
      | nil => intro s; simp
      | cons x l ih =>
        intro s
        rw [List.foldl_cons, ih]
        simp only [startPut, List.length_cons]
        rw [UInt8.ofNat_add, UInt8.add_assoc]
        congr 1
        rw [UInt8.add_comm]; rfl
    rw [hlen]
    have hb : ∀ i, (startBytes ⟨a, b, d, f, none⟩ i).length = 16 := by intro i; rfl
    rw [List.length_flatMap]
    simp only [hb]
    decide +kernel
  simp [connect, this]

end Gensio.Kiss
