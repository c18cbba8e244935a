import Verif.Model.Time
/-!
# C38 — time arithmetic, C39 — time conversions, C50 — timeouts handed to the OS
-/
namespace Gensio.Time

/-- A well-formed time. -/
def WF (t : T) : Prop := 0 ≤ t.nsecs ∧ t.nsecs < 1000000000

/-- The point in time in nanoseconds. -/
def ns (t : T) : Int := t.secs * 1000000000 + t.nsecs

/-- Far enough from the ends of `int64_t`. -/
def InRange (x : Int) : Prop := -2 ^ 61 < x ∧ x < 2 ^ 61

theorem i64_some {x : Int} (h : -2 ^ 63 ≤ x ∧ x < 2 ^ 63) : i64 x = some x := by rw [i64, if_pos h]
theorem i32_some {x : Int} (h : -2 ^ 31 ≤ x ∧ x < 2 ^ 31) : i32 x = some x := by rw [i32, if_pos h]

/-- The carry loop ends below its limit without changing the time meant. -/
theorem carryUp_spec (lim : Int) (hl : N ≤ lim) (hl2 : lim ≤ N + 1) (s n : Int) (hn : n < 2 * N)
    (hs : -2 ^ 63 ≤ s ∧ s < 2 ^ 63 - 2) :
    ∃ t, carryUp lim hl s n = some t ∧ ns t = s * N + n ∧ t.nsecs < lim ∧
      (n < lim → t = ⟨s, n⟩) ∧ (lim ≤ n → t.nsecs = n - N) ∧ s ≤ t.secs ∧ t.secs ≤ s + 1 := by
  rw [carryUp]
  split
  · rename_i h
    rw [i64_some ⟨by omega, by omega⟩]
    simp only [Option.bind_eq_bind, Option.bind_some]
    rw [carryUp, if_neg (by simp only [N] at *; omega)]
    refine ⟨⟨s + 1, n - N⟩, rfl, ?_, ?_, fun h' => absurd h' (by omega), ?_, ?_, ?_⟩ <;>
      simp only [ns, N] at * <;> first | omega | exact fun _ => trivial
  · rename_i h
    refine ⟨⟨s, n⟩, rfl, ?_, ?_, fun _ => rfl, ?_, ?_, ?_⟩ <;> simp only [ns, N] at * <;> omega

theorem carryDown_spec (s n : Int) (hn : -N ≤ n) (hs : -2 ^ 63 + 2 ≤ s ∧ s < 2 ^ 63) :
    ∃ t, carryDown s n = some t ∧ ns t = s * N + n ∧ 0 ≤ t.nsecs ∧
      (n < 0 → t.nsecs = n + N) ∧ (0 ≤ n → t = ⟨s, n⟩) := by
  rw [carryDown]
  split
  · rename_i h
    rw [i64_some ⟨by omega, by omega⟩]
    simp only [Option.bind_eq_bind, Option.bind_some]
    rw [carryDown, if_neg (by simp only [N] at *; omega)]
    refine ⟨⟨s - 1, n + N⟩, rfl, ?_, ?_, ?_, fun h' => absurd h' (by omega)⟩ <;>
      simp only [ns, N] at * <;> first | omega | exact fun _ => trivial
  · rename_i h
    refine ⟨⟨s, n⟩, rfl, ?_, ?_, ?_, fun _ => rfl⟩ <;> simp only [ns, N] at * <;> omega

/-- **C38, addition of two times**: exact and well-formed. -/
theorem C38_add (t v : T) (ht : WF t) (hv : WF v) (h1 : InRange t.secs) (h2 : InRange v.secs) :
    ∃ r, add t v = some r ∧ ns r = ns t + ns v ∧ WF r := by
  obtain ⟨t1, t2⟩ := ht
  obtain ⟨v1, v2⟩ := hv
  obtain ⟨a1, a2⟩ := h1
  obtain ⟨b1, b2⟩ := h2
  obtain ⟨r, e, e1, e2, e3, e4, _⟩ := carryUp_spec N (by decide) (by decide) (t.secs + v.secs)
    (t.nsecs + v.nsecs) (by simp only [N]; omega) (by omega)
  refine ⟨r, ?_, ?_, ?_⟩
  · rw [add, i64_some (by omega), i32_some (by omega)]; exact e
  · rw [e1]; simp only [ns, N]; omega
  · refine ⟨?_, e2⟩
    by_cases hc : t.nsecs + v.nsecs < N
    · rw [e3 hc]; simp only; omega
    · have := e4 (by omega); simp only [N] at *; omega

theorem tdiv_tmod (v : Int) : v.tdiv N * N + v.tmod N = v := by
  have := Int.tmod_add_mul_tdiv v N; rw [Int.mul_comm] at this; omega

theorem tmod_bound (v : Int) : -N < v.tmod N ∧ v.tmod N < N := by
  have h1 := Int.tmod_lt_of_pos v (b := N) (by decide)
  have h2 : -N < v.tmod N := by
    have := Int.tmod_lt_of_pos (-v) (b := N) (by decide)
    rw [Int.neg_tmod] at this; omega
  exact ⟨h2, h1⟩

theorem tdiv_bound (v : Int) (h : InRange v) : -2 ^ 61 < v.tdiv N ∧ v.tdiv N < 2 ^ 61 := by
  have h1 := tdiv_tmod v
  have h2 := tmod_bound v
  obtain ⟨a, b⟩ := h
  simp only [N] at *
  omega

/-- **C38, adding nanoseconds** (what holds): the result is the exact time and is well-formed
except when the nanosecond parts add up to exactly one second, where `nsecs` is left at
1000000000 (see `C38_add_nsecs_violated`). -/
theorem C38_add_nsecs_partial (t : T) (v : Int) (ht : WF t) (h1 : InRange t.secs) (h2 : InRange v) :
    ∃ r, addNsecs t v = some r ∧ ns r = ns t + v ∧ 0 ≤ r.nsecs ∧ r.nsecs ≤ 1000000000 ∧
      (r.nsecs = 1000000000 ↔ t.nsecs + v.tmod 1000000000 = 1000000000) := by
  obtain ⟨t1, t2⟩ := ht
  obtain ⟨a1, a2⟩ := h1
  have hb := tdiv_bound v h2
  have hm := tmod_bound v
  have hd := tdiv_tmod v
  have hN : (1000000000 : Int) = N := rfl
  rw [hN] at *
  obtain ⟨r, e, e1, e2, e3, e4, e5, e6⟩ := carryUp_spec (N + 1) (by decide) (by decide)
    (t.secs + v.tdiv N) (t.nsecs + v.tmod N) (by simp only [N] at *; omega) (by omega)
  have hrn : -N ≤ r.nsecs := by
    by_cases hc : t.nsecs + v.tmod N < N + 1
    · rw [e3 hc]; simp only; omega
    · have := e4 (by omega); omega
  obtain ⟨q, f, f1, f2, f3, f4⟩ := carryDown_spec r.secs r.nsecs hrn (by omega)
  refine ⟨q, ?_, ?_, f2, ?_, ?_⟩
  · rw [addNsecs, i64_some (by omega), i32_some (by simp only [N] at *; omega)]
    simp only [Option.bind_eq_bind, Option.bind_some]
    rw [e]; exact f
  · rw [f1]
    have : r.secs * N + r.nsecs = ns r := rfl
    rw [this, e1]; simp only [ns, N] at *; omega
  · by_cases hc : r.nsecs < 0
    · have := f3 hc; omega
    · rw [f4 (by omega)]; simp only; omega
  · by_cases hc : t.nsecs + v.tmod N < N + 1
    · have er := e3 hc
      by_cases hz : t.nsecs + v.tmod N < 0
      · have := f3 (by rw [er]; exact hz)
        rw [er] at this; simp only at this
        constructor <;> intro h <;> omega
      · have := f4 (by rw [er]; simp only; omega)
        rw [this, er]
    · have er := e4 (by omega)
      have := f4 (by omega)
      rw [this]; simp only
      constructor <;> intro h <;> simp only [N] at * <;> omega

/-- **C38 does not hold for `gensio_time_add_nsecs`**: well-formed in, not well-formed out.
The result then also compares wrongly: 0.5 s + 0.5 s is reported less than 1 s. -/
theorem C38_add_nsecs_violated :
    addNsecs ⟨0, 500000000⟩ 500000000 = some ⟨0, 1000000000⟩ ∧ WF ⟨0, 500000000⟩ ∧
    ¬ WF ⟨0, 1000000000⟩ ∧ cmp ⟨0, 1000000000⟩ ⟨1, 0⟩ = -1 := by
  refine ⟨?_, by simp [WF], by simp [WF], by decide⟩
  have h1 : (500000000 : Int).tdiv N = 0 := by decide
  have h2 : (500000000 : Int).tmod N = 500000000 := by decide
  simp only [addNsecs, h1, h2]
  rw [i64_some (by decide), i32_some (by decide)]
  simp only [Option.bind_eq_bind, Option.bind_some]
  rw [carryUp, if_neg (by decide)]
  simp only [Option.bind_some]
  rw [carryDown, if_neg (by decide)]; rfl

/-- **C38, difference**: exact. -/
theorem C38_diff (t1 t2 : T) (h1 : WF t1) (h2 : WF t2)
    (hr : -9000000000 < t1.secs - t2.secs ∧ t1.secs - t2.secs < 9000000000) :
    diffNsecs t1 t2 = some (ns t1 - ns t2) := by
  obtain ⟨a, b⟩ := h1
  obtain ⟨c, d⟩ := h2
  rw [diffNsecs, i64_some (by omega)]
  simp only [Option.bind_eq_bind, Option.bind_some]
  rw [i64_some (by simp only [N]; omega)]
  simp only [Option.bind_some]
  rw [i64_some (by simp only [N]; omega)]
  simp only [ns, N]; congr 1; omega

/-- **C38, comparison**: agrees with the order of nanoseconds. -/
theorem C38_cmp (t1 t2 : T) (h1 : WF t1) (h2 : WF t2) :
    (cmp t1 t2 = -1 ↔ ns t1 < ns t2) ∧ (cmp t1 t2 = 0 ↔ ns t1 = ns t2) ∧
    (cmp t1 t2 = 1 ↔ ns t1 > ns t2) := by
  obtain ⟨a, b⟩ := h1
  obtain ⟨c, d⟩ := h2
  simp only [cmp, ns]
  split
  · refine ⟨?_, ?_, ?_⟩ <;> constructor <;> intro h <;> omega
  split
  · refine ⟨?_, ?_, ?_⟩ <;> constructor <;> intro h <;> omega
  split
  · refine ⟨?_, ?_, ?_⟩ <;> constructor <;> intro h <;> omega
  split
  · refine ⟨?_, ?_, ?_⟩ <;> constructor <;> intro h <;> omega
  · refine ⟨?_, ?_, ?_⟩ <;> constructor <;> intro h <;> omega

example : add ⟨-3, 900000000⟩ ⟨1, 200000000⟩ = some ⟨-1, 100000000⟩ := by
  simp only [add]
  rw [i64_some (by decide), i32_some (by decide)]
  simp only [Option.bind_eq_bind, Option.bind_some]
  rw [carryUp, if_pos (by decide), i64_some (by decide)]
  simp only [Option.bind_eq_bind, Option.bind_some]
  rw [carryUp, if_neg (by decide)]; rfl
example : diffNsecs ⟨5, 1⟩ ⟨6, 3⟩ = some (-1000000002) := by decide

/-! ## C39 -/

/-- **C39, milliseconds** (non-negative): round trip, well-formed, exact. -/
theorem C39_msecs_partial (v : Int) (h0 : 0 ≤ v) (h1 : v < 2 ^ 63) :
    ∃ t, ofMsecs v = some t ∧ WF t ∧ ns t = v * 1000000 ∧ toMsecs t = some v := by
  have e1 : v.tmod 1000 = v % 1000 := Int.tmod_eq_emod_of_nonneg h0
  have e2 : v.tdiv 1000 = v / 1000 := Int.tdiv_eq_ediv_of_nonneg h0
  refine ⟨⟨v / 1000, v % 1000 * 1000000⟩, ?_, ?_, ?_, ?_⟩
  · rw [ofMsecs, e1, e2, i32_some (by omega)]; rfl
  · simp only [WF]; omega
  · simp only [ns]; omega
  · have e3 : convDown (v % 1000 * 1000000) 1000000 = v % 1000 := by
      have : (1000000 : Int).tdiv 2 = 500000 := rfl
      rw [convDown, this, Int.tdiv_eq_ediv_of_nonneg (by omega)]; omega
    rw [toMsecs, i64_some (by simp only; omega)]
    simp only [Option.bind_eq_bind, Option.bind_some, e3]
    rw [i64_some (by omega)]; congr 1; omega

/-- **C39, microseconds** (non-negative): round trip, well-formed, exact. -/
theorem C39_usecs_partial (v : Int) (h0 : 0 ≤ v) (h1 : v < 2 ^ 63) :
    ∃ t, ofUsecs v = some t ∧ WF t ∧ ns t = v * 1000 ∧ toUsecs t = some v := by
  have e1 : v.tmod 1000000 = v % 1000000 := Int.tmod_eq_emod_of_nonneg h0
  have e2 : v.tdiv 1000000 = v / 1000000 := Int.tdiv_eq_ediv_of_nonneg h0
  refine ⟨⟨v / 1000000, v % 1000000 * 1000⟩, ?_, ?_, ?_, ?_⟩
  · rw [ofUsecs, e1, e2, i32_some (by omega)]; rfl
  · simp only [WF]; omega
  · simp only [ns]; omega
  · have e3 : convDown (v % 1000000 * 1000) 1000 = v % 1000000 := by
      have : (1000 : Int).tdiv 2 = 500 := rfl
      rw [convDown, this, Int.tdiv_eq_ediv_of_nonneg (by omega)]; omega
    rw [toUsecs, i64_some (by simp only; omega)]
    simp only [Option.bind_eq_bind, Option.bind_some, e3]
    rw [i64_some (by omega)]; congr 1; omega

/-- **C39, nanoseconds**: the direction to a time is right for non-negative counts; the
direction back is right only for whole seconds — the nanosecond part is divided by 1000
(rounded). -/
theorem C39_nsecs_partial (v : Int) (h0 : 0 ≤ v) (h1 : v < 2 ^ 63) :
    ∃ t, ofNsecs v = some t ∧ WF t ∧ ns t = v ∧
      toNsecs t = some (v / 1000000000 * 1000000000 + (v % 1000000000 + 500) / 1000) ∧
      (toNsecs t = some v ↔ v % 1000000000 = 0) := by
  have e1 : v.tmod N = v % N := Int.tmod_eq_emod_of_nonneg h0
  have e2 : v.tdiv N = v / N := Int.tdiv_eq_ediv_of_nonneg h0
  have e5 : toNsecs ⟨v / N, v % N⟩ =
      some (v / 1000000000 * 1000000000 + (v % 1000000000 + 500) / 1000) := by
    have : (1000 : Int).tdiv 2 = 500 := rfl
    have e3 : convDown (v % N) 1000 = (v % N + 500) / 1000 := by
      rw [convDown, this, Int.tdiv_eq_ediv_of_nonneg (by simp only [N]; omega)]
    rw [toNsecs, i64_some (by simp only [N]; omega)]
    simp only [Option.bind_eq_bind, Option.bind_some, e3]
    rw [i64_some (by simp only [N]; omega)]
  refine ⟨⟨v / N, v % N⟩, ?_, ?_, ?_, e5, ?_⟩
  · rw [ofNsecs, e1, e2, i32_some (by simp only [N]; omega)]; rfl
  · simp only [WF, N]; omega
  · simp only [ns, N]; omega
  · rw [e5]; simp only [Option.some.injEq]; omega

/-- **C39 does not hold**: `gensio_time_to_nsecs` is off for every time with a nanosecond
part, and negative counts give times that are not well-formed, and do not come back. -/
theorem C39_violated :
    (ofNsecs 5000 = some ⟨0, 5000⟩ ∧ toNsecs ⟨0, 5000⟩ = some 5) ∧
    (ofMsecs (-1) = some ⟨0, -1000000⟩ ∧ toMsecs ⟨0, -1000000⟩ = some 0 ∧ ¬ WF ⟨0, -1000000⟩) ∧
    (ofUsecs (-1) = some ⟨0, -1000⟩ ∧ toUsecs ⟨0, -1000⟩ = some 0 ∧ ¬ WF ⟨0, -1000⟩) ∧
    (ofNsecs (-1) = some ⟨0, -1⟩ ∧ ¬ WF ⟨0, -1⟩) := by
  refine ⟨by decide, ⟨by decide, by decide, by simp [WF]⟩, ⟨by decide, by decide, by simp [WF]⟩,
    by decide, by simp [WF]⟩

/-- The error concerns every time with nanoseconds: `gensio_time_to_nsecs` is exact only
for whole seconds. -/
theorem C39_to_nsecs_wrong_violated (t : T) (h : WF t) (hr : -9000000000 < t.secs ∧ t.secs < 9000000000) :
    toNsecs t = some (ns t) ↔ t.nsecs = 0 := by
  obtain ⟨a, b⟩ := h
  have : (1000 : Int).tdiv 2 = 500 := rfl
  have e3 : convDown t.nsecs 1000 = (t.nsecs + 500) / 1000 := by
    rw [convDown, this, Int.tdiv_eq_ediv_of_nonneg (by omega)]
  rw [toNsecs, i64_some (by simp only [N]; omega)]
  simp only [Option.bind_eq_bind, Option.bind_some, e3]
  rw [i64_some (by simp only [N]; omega)]
  simp only [ns, N, Option.some.injEq]; omega

example : ofMsecs 1234 = some ⟨1, 234000000⟩ ∧ toMsecs ⟨1, 234000000⟩ = some 1234 := by decide

/-! ## C50: timeouts handed to the operating system -/

/-- The microsecond part must be below a million (`select`, `sel_start_timer`, …). -/
def TVWF (tv : TV) : Prop := 0 ≤ tv.usec ∧ tv.usec < 1000000

/-- Distance between the time asked for and the time set, in nanoseconds. -/
def tvErr (tv : TV) (t : T) : Int := tv.sec * 1000000000 + tv.usec * 1000 - ns t

/-- **C50** (what holds): the conversion of a well-formed time is off by at most half a
microsecond, and is well-formed unless the nanosecond part is within the last half
microsecond of a second. -/
theorem C50_to_timeval_partial (t : T) (h : WF t) :
    -500 ≤ tvErr (toTimeval t) t ∧ tvErr (toTimeval t) t ≤ 500 ∧
    (TVWF (toTimeval t) ↔ t.nsecs < 999999500) := by
  obtain ⟨a, b⟩ := h
  have e : (t.nsecs + 500).tdiv 1000 = (t.nsecs + 500) / 1000 := Int.tdiv_eq_ediv_of_nonneg (by omega)
  simp only [tvErr, toTimeval, TVWF, ns, e]
  omega

theorem tvUp_spec (sec usec : Int) :
    (tvUp sec usec).sec * 1000000 + (tvUp sec usec).usec = sec * 1000000 + usec ∧
    (tvUp sec usec).usec ≤ 1000000 ∧ (0 ≤ usec → 0 ≤ (tvUp sec usec).usec) := by
  fun_induction tvUp sec usec with
  | case1 sec usec h ih => exact ⟨by omega, ih.2.1, fun _ => ih.2.2 (by omega)⟩
  | case2 sec usec h => exact ⟨rfl, by simp only; omega, id⟩

theorem tvDown_spec (sec usec : Int) :
    (tvDown sec usec).sec * 1000000 + (tvDown sec usec).usec = sec * 1000000 + usec ∧
    0 ≤ (tvDown sec usec).usec ∧ (usec ≤ 1000000 → (tvDown sec usec).usec ≤ 1000000) := by
  fun_induction tvDown sec usec with
  | case1 sec usec h ih => exact ⟨by omega, ih.2.1, fun _ => ih.2.2 (by omega)⟩
  | case2 sec usec h => exact ⟨rfl, by simp only; omega, id⟩

/-- **C50, adding a timeout to the current time**, whatever the two times are (also negative or
not normalised): the result has between 0 and 1000000 microseconds (exactly one million is possible,
`>` in the loop), and it is off by at most half a microsecond if the nanosecond part is not negative,
by less than one and a half otherwise. -/
theorem C50_add_timeval_partial (tv : TV) (t : T) :
    let r := addToTimeval tv t
    let ex := ns t + tv.sec * 1000000000 + tv.usec * 1000
    (-500 ≤ r.sec * 1000000000 + r.usec * 1000 - ex) ∧
    r.sec * 1000000000 + r.usec * 1000 - ex < 1500 ∧
    (0 ≤ t.nsecs → r.sec * 1000000000 + r.usec * 1000 - ex ≤ 500) ∧ 0 ≤ r.usec ∧ r.usec ≤ 1000000 := by
  have e := Int.mul_tdiv_add_tmod (t.nsecs + 500) 1000
  have e2 := Int.tmod_lt_of_pos (t.nsecs + 500) (b := 1000) (by omega)
  have e3 : -1000 < (t.nsecs + 500).tmod 1000 := by
    have := Int.tmod_lt_of_pos (-(t.nsecs + 500)) (b := 1000) (by omega)
    rw [Int.neg_tmod] at this
    omega
  have e4 : 0 ≤ t.nsecs → 0 ≤ (t.nsecs + 500).tmod 1000 := fun h => Int.tmod_nonneg _ (by omega)
  simp only [addToTimeval, ns]
  generalize (t.nsecs + 500).tdiv 1000 = q at *
  generalize (t.nsecs + 500).tmod 1000 = m at *
  have u := tvUp_spec (tv.sec + t.secs) (tv.usec + q)
  generalize tvUp (tv.sec + t.secs) (tv.usec + q) = a at *
  have d := tvDown_spec a.sec a.usec
  generalize tvDown a.sec a.usec = b at *
  have d3 := d.2.2 u.2.1
  refine ⟨?_, ?_, ?_, ?_, ?_⟩ <;> omega

/-- **C50 does not hold**: both functions produce 1000000 microseconds. -/
theorem C50_violated :
    toTimeval ⟨0, 999999600⟩ = ⟨0, 1000000⟩ ∧ WF ⟨0, 999999600⟩ ∧
    addToTimeval ⟨7, 500000⟩ ⟨0, 500000000⟩ = ⟨7, 1000000⟩ ∧ TVWF ⟨7, 500000⟩ ∧
    ¬ TVWF ⟨0, 1000000⟩ ∧ ¬ TVWF ⟨7, 1000000⟩ := by
  refine ⟨by decide, by simp [WF], ?_, by simp [TVWF], by simp [TVWF], by simp [TVWF]⟩
  simp [addToTimeval, tvUp, tvDown, Int.tdiv]

/-- The way back is exact and well-formed. -/
theorem C50_of_timeval (tv : TV) (h : TVWF tv) :
    WF (ofTimeval tv) ∧ ns (ofTimeval tv) = tv.sec * 1000000000 + tv.usec * 1000 := by
  obtain ⟨a, b⟩ := h
  simp only [WF, ns, ofTimeval]; refine ⟨⟨?_, ?_⟩, ?_⟩ <;> first | omega | trivial

example : addToTimeval ⟨7, 100000⟩ ⟨1, -200000500⟩ = ⟨7, 900000⟩ := by
  have e : (-200000500 + 500 : Int).tdiv 1000 = -200000 := by decide
  simp only [addToTimeval, e]
  rw [tvUp, if_neg (by decide), tvDown, if_pos (by decide), tvDown, if_neg (by decide)]
  rfl

example : addToTimeval ⟨7, 900000⟩ ⟨1, 200000000⟩ = ⟨9, 100000⟩ := by
  simp [addToTimeval, tvUp, tvDown, Int.tdiv]

end Gensio.Time
