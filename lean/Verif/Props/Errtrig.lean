import Verif.Model.Errtrig

/-!
# Failures on purpose: C220
-/

namespace Gensio.Errtrig

theorem trigs_none (m : Nat) :
    (S.trigs none {} m).2 = List.replicate m false ∧ (S.trigs none {} m).1.ready = false ∧ (S.trigs none {} m).1.triggered = false := by
  induction m with
  | zero => exact ⟨rfl, rfl, rfl⟩
  | succ m ih =>
    obtain ⟨h1, h2, h3⟩ := ih
    have hi : ((S.trigs none {} m).1.init none).ready = false ∧ ((S.trigs none {} m).1.init none).triggered = false := by
      simp only [S.init]; split <;> simp [h2, h3]
    simp only [S.trigs, S.trig, hi.1]
    simp [h1, hi.1, hi.2, List.replicate_succ']

theorem trigs_some (n m : Nat) :
    (S.trigs (some n) {} m).1.curr = m % 4294967296 ∧
    (0 < m → (S.trigs (some n) {} m).1.initialized = true ∧ (S.trigs (some n) {} m).1.ready = true ∧
      (S.trigs (some n) {} m).1.count = n % 4294967296) ∧
    (m = 0 → (S.trigs (some n) {} m).1 = {}) ∧
    (S.trigs (some n) {} m).2 = (List.range m).map (fun i => decide (i % 4294967296 = n % 4294967296)) ∧
    (S.trigs (some n) {} m).1.triggered = (S.trigs (some n) {} m).2.any id := by
  induction m with
  | zero => simp [S.trigs]
  | succ m ih =>
    obtain ⟨h1, h2, h3, h4, h5⟩ := ih
    generalize hr : S.trigs (some n) {} m = r at h1 h2 h3 h4 h5
    have hi : (r.1.init (some n)).ready = true ∧ (r.1.init (some n)).initialized = true ∧
        (r.1.init (some n)).count = n % 4294967296 ∧ (r.1.init (some n)).curr = m % 4294967296 ∧
        (r.1.init (some n)).triggered = r.1.triggered := by
      by_cases hm : m = 0
      · rw [h3 hm]; simp [S.init, hm]
      · obtain ⟨g1, g2, g3⟩ := h2 (by omega)
        simp [S.init, g1, g2, g3, h1]
    obtain ⟨i1, i2, i3, i4, i5⟩ := hi
    have hinc : inc (m % 4294967296) = (m + 1) % 4294967296 := by
      simp only [inc]; split <;> omega
    simp only [S.trigs, hr, S.trig, i1, if_true, i3, i4]
    by_cases he : m % 4294967296 = n % 4294967296
    · simp only [he, if_true]
      refine ⟨by rw [← he, hinc], ?_, by omega, ?_, ?_⟩
      · intro _; simp [i2, i1, i3]
      · rw [h4, List.range_succ]; simp [he]
      · simp
    · simp only [he, if_false]
      refine ⟨hinc, ?_, by omega, ?_, ?_⟩
      · intro _; simp [i2, i1, i3]
      · rw [h4, List.range_succ]; simp [he]
      · simp [i5, h5]

/-- **C220**: without the variable no call fails and exit codes stay; with it,
counting from 0, of the first 2^32 calls exactly that with the given number
fails. -/
theorem C220_trig (m : Nat) :
    ((S.trigs none {} m).2 = List.replicate m false ∧ ∀ rv, (S.trigs none {} m).1.exit rv = some rv) ∧
    ∀ n, n < 2 ^ 32 → m ≤ 2 ^ 32 → (S.trigs (some n) {} m).2.length = m ∧
      ∀ i, i < m → ((S.trigs (some n) {} m).2[i]? = some true ↔ i = n) := by
  refine ⟨⟨(trigs_none m).1, fun rv => by simp [S.exit, (trigs_none m).2.1]⟩, ?_⟩
  intro n hn hm
  rw [(trigs_some n m).2.2.2.1]
  refine ⟨by simp, ?_⟩
  intro i hi
  rw [List.getElem?_map, List.getElem?_range hi]
  simp only [Option.map_some, Option.some.injEq, decide_eq_true_eq]
  omega

/-- **C220, partial**: the exit code tells whether there was an error and whether
a call was made to fail.  Partial: `do_errtrig` was called; see
`C220_exit_violated`. -/
theorem C220_exit_partial (n m : Nat) (hm : 0 < m) :
    ((S.trigs (some n) {} m).1.exit 0 = some 0 ↔ true ∉ (S.trigs (some n) {} m).2) ∧
    ((S.trigs (some n) {} m).1.exit 0 = some 2 ↔ true ∈ (S.trigs (some n) {} m).2) ∧
    ((S.trigs (some n) {} m).1.exit 1 = some 1 ↔ true ∈ (S.trigs (some n) {} m).2) ∧
    ((S.trigs (some n) {} m).1.exit 1 = some 3 ↔ true ∉ (S.trigs (some n) {} m).2) := by
  obtain ⟨-, h2, -, -, h5⟩ := trigs_some n m
  obtain ⟨-, g2, -⟩ := h2 hm
  have ht : (S.trigs (some n) {} m).1.triggered = true ↔ true ∈ (S.trigs (some n) {} m).2 := by
    rw [h5, List.any_eq_true]
    constructor
    · rintro ⟨x, hx, hx'⟩
      simp only [id] at hx'
      rwa [hx'] at hx
    · intro h; exact ⟨true, h, rfl⟩
  rw [← ht]
  simp only [S.exit, g2]
  cases (S.trigs (some n) {} m).1.triggered <;> simp

example : (S.trigs (some 2) {} 5).2 = [false, false, true, false, false] ∧ (S.trigs (some 2) {} 5).1.exit 0 = some 2 ∧
    (S.trigs (some 2) {} 2).1.exit 1 = some 3 ∧ (S.trigs (some 2) {} 5).1.exit 7 = none := by decide +kernel

/-- **C220**: the variable counts as it was at the first call; changes of the
environment after it change nothing. -/
theorem C220_first (env env' : Option Nat) (m : Nat) (hm : 0 < m) :
    (S.trigs env {} m).1.trig env' = (S.trigs env {} m).1.trig env := by
  have hi : (S.trigs env {} m).1.initialized = true := by
    obtain ⟨k, rfl⟩ : ∃ k, m = k + 1 := ⟨m - 1, by omega⟩
    simp only [S.trigs, S.trig]
    have : ((S.trigs env {} k).1.init env).initialized = true := by
      simp only [S.init]; split
      · assumption
      · split <;> rfl
    split
    · split <;> exact this
    · exact this
  simp [S.trig, S.init, hi]

example : ((S.trigs (some 1) {} 1).1.trig none).2 = true ∧ ((S.trigs none {} 1).1.trig (some 0)).2 = false := by decide +kernel

/-- **C220 is violated**: of a program that ends with an error before any call, the
exit code says that a call was made to fail. -/
theorem C220_exit_violated (n : Nat) : (S.trigs (some n) {} 0).1.exit 1 = some 1 ∧ true ∉ (S.trigs (some n) {} 0).2 := by
  simp [S.trigs, S.exit]

/-- **C220 is violated**: the comment says that the Nth call fails; it is the one
after it. -/
theorem C220_nth_violated (n : Nat) (h : n < 2 ^ 32) :
    true ∉ (S.trigs (some n) {} n).2 ∧ (S.trigs (some n) {} (n + 1)).2[n]? = some true := by
  rw [(trigs_some n n).2.2.2.1, (trigs_some n (n + 1)).2.2.2.1]
  constructor
  · simp only [List.mem_map, List.mem_range, decide_eq_true_eq, not_exists, not_and]
    intro i hi
    omega
  · rw [List.getElem?_map, List.getElem?_range (by omega)]
    simp

/-- **C220 is violated**: after 2^32 calls the count starts again, and a second
call fails. -/
theorem C220_wrap_violated (n : Nat) (h : n < 2 ^ 32) :
    (S.trigs (some n) {} (n + 2 ^ 32 + 1)).2[n]? = some true ∧ (S.trigs (some n) {} (n + 2 ^ 32 + 1)).2[n + 2 ^ 32]? = some true := by
  rw [(trigs_some n _).2.2.2.1]
  constructor
  · rw [List.getElem?_map, List.getElem?_range (by omega)]
    simp
  · rw [List.getElem?_map, List.getElem?_range (by omega)]
    simp only [Option.map_some, Option.some.injEq, decide_eq_true_eq]
    omega

end Gensio.Errtrig
