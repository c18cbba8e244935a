import Verif.Model.CntStr
/-!
# C09 — counted strings are freed exactly when the last reference is dropped
-/
namespace Gensio.CntStr

/-- Who holds what: address ↦ (the holders, with multiplicity; the content).  An address
without holders is not in use. -/
abbrev Holders := Nat → Option (List Nat × Option (List UInt8))

/-- The bookkeeping of well behaved holders.  Making a string gives its maker one
reference at an address not in use.  A reference is taken only from a string somebody
holds, and there are fewer than 2^32 references.  Only holders release. -/
inductive Spec : Holders → Op → Holders → Prop
  | make {S who a s} : S a = none →
      Spec S (.make who a s) (fun x => if x = a then some ([who], s) else S x)
  | ref {S who a hs s} : S a = some (hs, s) → hs.length + 1 < 2 ^ 32 →
      Spec S (.ref who a) (fun x => if x = a then some (who :: hs, s) else S x)
  | release {S who a pre post s} : S a = some (pre ++ who :: post, s) → pre ++ post ≠ [] →
      Spec S (.free who a) (fun x => if x = a then some (pre ++ post, s) else S x)
  | releaseLast {S who a s} : S a = some ([who], s) →
      Spec S (.free who a) (fun x => if x = a then none else S x)

inductive SpecRun : Holders → List Op → Holders → Prop
  | nil {S} : SpecRun S [] S
  | cons {S op S' ops S''} : Spec S op S' → SpecRun S' ops S'' → SpecRun S (op :: ops) S''

/-- The counter of every object is the number of its holders. -/
def Inv (h : Heap) (S : Holders) : Prop :=
  ∀ a, match S a with
    | none => h a = none
    | some (hs, s) => h a = some ⟨hs.length, s⟩ ∧ hs ≠ [] ∧ hs.length < 2 ^ 32

theorem step_inv {h S op S'} (hi : Inv h S) (hs : Spec S op S') :
    ∃ h', step h op = some h' ∧ Inv h' S' := by
  cases hs with
  | @make who a s hn =>
    have ha := hi a
    rw [hn] at ha
    refine ⟨_, by simp [step, make, ha]; rfl, ?_⟩
    intro x
    by_cases hx : x = a
    · simp [hx]
    · simpa [hx] using hi x
  | @ref who a hs s hn hl =>
    have ha := hi a
    rw [hn] at ha
    obtain ⟨h1, h2, h3⟩ := ha
    have hz : hs.length ≠ 0 := by simpa using h2
    refine ⟨_, by simp [step, ref, h1, refInc, hz]; rfl, ?_⟩
    intro x
    by_cases hx : x = a
    · have e : (hs.length + 1) % 2 ^ 32 = hs.length + 1 := Nat.mod_eq_of_lt hl
      simp at e hl
      simp [hx, e, hl]
    · simpa [hx] using hi x
  | @release who a pre post s hn hne =>
    have ha := hi a
    rw [hn] at ha
    obtain ⟨h1, h2, h3⟩ := ha
    have hl : (pre ++ who :: post).length = (pre ++ post).length + 1 := by simp; omega
    have hz : (pre ++ post).length ≠ 0 := by simpa using hne
    rw [hl] at h1 h3
    refine ⟨_, by simp only [step, free, h1, refDec]; simp [-List.length_append, hz]; rfl, ?_⟩
    intro x
    by_cases hx : x = a
    · simp only [hx, if_true]
      exact ⟨by simp, hne, by omega⟩
    · simpa [hx] using hi x
  | @releaseLast who a s hn =>
    have ha := hi a
    rw [hn] at ha
    obtain ⟨h1, h2, h3⟩ := ha
    refine ⟨_, by simp [step, free, h1, refDec]; rfl, ?_⟩
    intro x
    by_cases hx : x = a
    · simp [hx]
    · simpa [hx] using hi x

theorem run_inv {ops : List Op} : ∀ {h S S'}, Inv h S → SpecRun S ops S' →
    ∃ h', run h ops = some h' ∧ Inv h' S' := by
  induction ops with
  | nil => intro h S S' hi hr; cases hr; exact ⟨h, rfl, hi⟩
  | cons op ops ih =>
    intro h S S' hi hr
    cases hr with
    | cons hs hr =>
      obtain ⟨h1, e1, i1⟩ := step_inv hi hs
      obtain ⟨h2, e2, i2⟩ := ih i1 hr
      exact ⟨h2, by simp [run, e1, e2], i2⟩

/-- **C09.**  In every history of well behaved holders nothing is used or freed after it
was freed (the run never gets stuck), every string somebody still holds is readable with
its original content, and every string nobody holds is freed. -/
theorem C09_cntstr (ops : List Op) (S : Holders) (hr : SpecRun (fun _ => none) ops S) :
    ∃ h, run (fun _ => none) ops = some h ∧
      (∀ a hs s, S a = some (hs, s) → get h a = some s) ∧
      (∀ a, S a = none → h a = none) := by
  obtain ⟨h, e, hi⟩ := run_inv (h := fun _ => none) (S := fun _ => none) (fun a => rfl) hr
  refine ⟨h, e, ?_, ?_⟩
  · intro a hs s ha
    have := hi a
    rw [ha] at this
    simp [get, this.1]
  · intro a ha
    have := hi a
    rwa [ha] at this

/-- **C09, the last release and only the last frees.** -/
theorem C09_last_release_frees (ops : List Op) (S : Holders)
    (hr : SpecRun (fun _ => none) ops S) (h : Heap) (hrun : run (fun _ => none) ops = some h)
    (a who : Nat) (pre post : List Nat) (s : Option (List UInt8))
    (hS : S a = some (pre ++ who :: post, s)) :
    ∃ h', free h a = some h' ∧ (h' a = none ↔ pre ++ post = []) ∧ ∀ x, x ≠ a → h' x = h x := by
  obtain ⟨h0, e, hi⟩ := run_inv (h := fun _ => none) (S := fun _ => none) (fun a => rfl) hr
  rw [hrun] at e; simp at e; subst e
  have ha := hi a
  simp only [hS] at ha
  have hl : (pre ++ who :: post).length = (pre ++ post).length + 1 := by simp; omega
  rw [hl] at ha
  by_cases hz : pre ++ post = []
  · refine ⟨fun x => if x = a then none else h x, ?_, by simp [hz], by intro x hx; simp [hx]⟩
    simp [free, ha.1, refDec, hz]
  · have hz' : (pre ++ post).length ≠ 0 := by simpa using hz
    refine ⟨fun x => if x = a then some ⟨(pre ++ post).length, s⟩ else h x, ?_, ?_, ?_⟩
    · simp only [free, ha.1, refDec]; simp [-List.length_append, hz']
    · simp [hz]
    · intro x hx; simp [hx]

/-- The bound on the number of references is needed: the counter is a wrapping
`unsigned int`, so 2^32 references make it zero while all of them are held, and the next
release fails its assertion. -/
theorem C09_wrap_violated (a : Nat) (s : Option (List UInt8)) (n : Nat) (hn : n + 1 = 2 ^ 32) :
    ∃ h, run (fun _ => none) (.make 0 a s :: List.replicate n (.ref 0 a)) = some h ∧
      free h a = none := by
  have aux : ∀ (n c : Nat) (h : Heap), h a = some ⟨c, s⟩ → 0 < c → c + n < 2 ^ 32 →
      ∃ h', run h (List.replicate n (.ref 0 a) ++ [.ref 0 a]) = some h' ∧
        h' a = some ⟨(c + n + 1) % 2 ^ 32, s⟩ := by
    intro n
    induction n with
    | zero =>
      intro c h hc h0 hb
      refine ⟨fun x => if x = a then some ⟨(c + 1) % 2 ^ 32, s⟩ else h x, ?_, by simp⟩
      simp [run, step, ref, hc, refInc, Nat.ne_of_gt h0]
    | succ n ih =>
      intro c h hc h0 hb
      have hm : (c + 1) % 2 ^ 32 = c + 1 := Nat.mod_eq_of_lt (by omega)
      obtain ⟨h', e, e'⟩ := ih (c + 1) (fun x => if x = a then some ⟨c + 1, s⟩ else h x)
        (by simp) (by omega) (by omega)
      refine ⟨h', ?_, by rw [e']; congr 3; omega⟩
      rw [List.replicate_succ, List.cons_append]
      have hs : step h (.ref 0 a) = some (fun x => if x = a then some ⟨c + 1, s⟩ else h x) := by
        have hz : c ≠ 0 := by omega
        have hi : refInc c = some (c + 1) := by rw [refInc, if_neg hz, hm]
        simp [step, ref, hc, hi]
      simp only [run, hs]
      exact e
  obtain ⟨k, rfl⟩ : ∃ k, n = k + 1 := ⟨n - 1, by omega⟩
  obtain ⟨h', e, e'⟩ := aux k 1 (fun x => if x = a then some ⟨1, s⟩ else none) (by simp)
    (by omega) (by omega)
  refine ⟨h', ?_, ?_⟩
  · have : run (fun _ => none) (.make 0 a s :: List.replicate (k + 1) (.ref 0 a)) =
        run (fun x => if x = a then some ⟨1, s⟩ else none) (List.replicate (k + 1) (.ref 0 a)) := by
      simp [run, step, make]
    rw [this, List.replicate_succ']; exact e
  · have hz : (1 + k + 1) % 2 ^ 32 = 0 := by
      have : 1 + k + 1 = 2 ^ 32 := by omega
      rw [this, Nat.mod_self]
    rw [hz] at e'
    simp [free, e', refDec]

/-- Two holders of one string, address reuse after the release. -/
example : (run (fun _ => none) [.make 0 7 (some [104, 105]), .ref 1 7, .free 0 7]).bind (get · 7)
    = some (some [104, 105]) := by decide +kernel
example : ((run (fun _ => none) [.make 0 7 (some [104]), .ref 1 7, .free 0 7, .free 1 7,
      .make 2 7 (some [105])]).bind (get · 7)) = some (some [105]) := by decide +kernel
example : (run (fun _ => none) [.make 0 7 none, .free 0 7, .free 0 7]).isNone = true := by
  decide +kernel

/-- A history meeting the hypothesis. -/
example : ∃ S, SpecRun (fun _ => none) [.make 0 7 (some [104]), .ref 1 7, .free 0 7] S ∧
    S 7 = some ([1], some [104]) :=
  ⟨_, .cons (.make rfl) (.cons (.ref (hs := [0]) (s := some [104]) rfl (by simp))
    (.cons (.release (pre := [1]) (post := []) (s := some [104]) rfl (by simp)) .nil)), rfl⟩

end Gensio.CntStr
