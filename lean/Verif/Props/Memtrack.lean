import Verif.Model.Memtrack

/-!
# The memory checker: C219
-/

namespace Gensio.Memtrack

/-- The value written last at an offset of a block. -/
def lastAt (k : Nat) (off : Int) : List Ev → Option UInt8
  | [] => none
  | e :: es =>
    match lastAt k off es with
    | some v => some v
    | none =>
      match e with
      | .write j o v => if j = k ∧ o = off then some v else none
      | _ => none

/-- The sizes of the blocks, in the order of their allocation. -/
def sizes (es : List Ev) : List Nat := es.filterMap fun e => match e with | .alloc n => some n | _ => none

theorem lastAt_append (k : Nat) (off : Int) (a b : List Ev) :
    lastAt k off (a ++ b) = (lastAt k off b).or (lastAt k off a) := by
  induction a with
  | nil => simp [lastAt]
  | cons e a ih =>
    simp only [List.cons_append, lastAt, ih]
    cases lastAt k off b <;> simp

theorem steps_append (s : S) (a b : List Ev) (r : S × List Out) (h : s.steps (a ++ b) = some r) :
    ∃ s1 o1 o2, s.steps a = some (s1, o1) ∧ s1.steps b = some (r.1, o2) ∧ r.2 = o1 ++ o2 := by
  induction a generalizing s r with
  | nil => exact ⟨s, [], r.2, rfl, h, rfl⟩
  | cons e a ih =>
    simp only [List.cons_append, S.steps] at h ⊢
    cases h1 : s.step e with
    | none => simp [h1] at h
    | some x =>
      obtain ⟨s1, o1⟩ := x
      simp only [h1] at h ⊢
      cases h2 : s1.steps (a ++ b) with
      | none => simp [h2] at h
      | some y =>
        simp only [h2, Option.some.injEq] at h
        obtain ⟨s2, p, q, g1, g2, g3⟩ := ih s1 y h2
        refine ⟨s2, o1 ++ p, q, by simp [g1], ?_, ?_⟩
        · rw [← h]; exact g2
        · rw [← h, g3]; simp

/-- What holds after every run. -/
structure Inv (s : S) (es : List Ev) (o : List Out) : Prop where
  n : s.n = (sizes es).length
  size : ∀ k, k < s.n → (sizes es)[k]? = some (s.blk k).size
  mem : ∀ k off, k < s.n → (s.blk k).mem off =
    (lastAt k off es).getD (if 0 ≤ off ∧ off < (s.blk k).size then 0 else 0xfd)
  fresh : ∀ k off, s.n ≤ k → lastAt k off es = none
  alloced : s.alloced = (List.range s.n).filter fun k => !(s.blk k).freed
  freedL : ∀ k, k ∈ s.freedL ↔ k < s.n ∧ (s.blk k).freed = true
  gone : ∀ k, o.count (.gone k) = if k < s.n ∧ (s.blk k).freed = true then 1 else 0

theorem checks_gone (blk : Nat → Block) (f : Bool) (l : List Nat) (o : List Out) (h : checks blk f l = some o) (k : Nat) :
    o.count (.gone k) = 0 := by
  induction l generalizing o with
  | nil => simp only [checks, Option.some.injEq] at h; rw [← h]; rfl
  | cons j l ih =>
    simp only [checks] at h
    split at h
    · simp at h
    · exact ih o h
    · rename_i m hm
      cases h2 : checks blk f l with
      | none => simp [h2] at h
      | some os =>
        simp only [h2, Option.some.injEq] at h
        have hm' : m ≠ .gone k := by
          intro he
          rw [he] at hm
          simp only [check] at hm
          grind
        rw [← h, List.count_cons, ih os h2]
        simp [hm']

theorem free_cases (s s' : S) (k : Nat) (o : List Out) (h : s.step (.free k) = some (s', o)) :
    k < s.n ∧ ((∃ m, check k (s.blk k) false = .msg m ∧ s' = s ∧ o = [m] ∧ ∀ j, m ≠ .gone j) ∨
      (check k (s.blk k) false = .fine ∧
        s' = { s with alloced := s.alloced.erase k, freedL := s.freedL ++ [k], blk := setBlk s.blk k { s.blk k with freed := true } } ∧
        ∃ o1, o = o1 ++ [.gone k] ∧ (∀ j, o1.count (.gone j) = 0) ∧ (s.all = false → o1 = []) ∧
          (s.all = true → ∃ a b, checks s.blk false (s.alloced.erase k) = some a ∧ checks s.blk true s.freedL = some b ∧ o1 = a ++ b))) := by
  simp only [S.step] at h
  split at h
  · simp at h
  · rename_i hk
    refine ⟨by omega, ?_⟩
    split at h
    · simp at h
    · rename_i m hm
      simp only [Option.some.injEq, Prod.mk.injEq] at h
      refine .inl ⟨m, hm, h.1.symm, h.2.symm, ?_⟩
      intro j he
      rw [he] at hm
      simp only [check] at hm
      grind
    · rename_i hm
      right
      refine ⟨hm, ?_⟩
      split at h
      · rename_i ha
        cases h1 : checks s.blk false (s.alloced.erase k) with
        | none => simp [h1] at h
        | some a =>
          cases h2 : checks s.blk true s.freedL with
          | none => simp [h1, h2] at h
          | some b =>
            simp only [h1, h2, Option.some.injEq, Prod.mk.injEq] at h
            refine ⟨h.1.symm, a ++ b, h.2.symm, ?_, by simp [ha], fun _ => ⟨a, b, rfl, rfl, rfl⟩⟩
            intro j
            rw [List.count_append, checks_gone _ _ _ _ h1, checks_gone _ _ _ _ h2]
      · rename_i ha
        simp only [Option.some.injEq, Prod.mk.injEq] at h
        exact ⟨h.1.symm, [], h.2.symm, by simp, by simp, by simp [ha]⟩

theorem erase_filter (l : List Nat) (p : Nat → Bool) (k : Nat) (hn : l.Nodup) :
    (l.filter p).erase k = l.filter fun j => p j && j != k := by
  induction l with
  | nil => rfl
  | cons x l ih =>
    rw [List.nodup_cons] at hn
    by_cases hx : p x = true
    · by_cases hk : x = k
      · subst hk
        have h2 : ∀ l : List Nat, x ∉ l → (l.filter fun j => p j && j != x) = l.filter p := by
          intro l hl
          apply List.filter_congr
          intro j hj
          have : j ≠ x := by intro he; subst he; exact hl hj
          simp [this]
        simp [List.filter_cons, hx, h2 l hn.1]
      · simp [List.filter_cons, hx, hk, List.erase_cons, ih hn.2]
    · simp [List.filter_cons, hx, ih hn.2]

theorem inv_step (s s' : S) (es : List Ev) (o o' : List Out) (e : Ev) (hi : Inv s es o) (h : s.step e = some (s', o')) :
    Inv s' (es ++ [e]) (o ++ o') := by
  obtain ⟨i1, i2, i3, i4, i5, i6, i7⟩ := hi
  cases e with
  | alloc size =>
    simp only [S.step, Option.some.injEq, Prod.mk.injEq] at h
    obtain ⟨rfl, rfl⟩ := h
    have hsz : sizes (es ++ [.alloc size]) = sizes es ++ [size] := by simp [sizes]
    have hla : ∀ k off, lastAt k off (es ++ [.alloc size]) = lastAt k off es := by
      intro k off; rw [lastAt_append]; simp [lastAt]
    refine ⟨by simp [hsz, i1], ?_, ?_, ?_, ?_, ?_, ?_⟩
    · intro k hk
      simp only at hk
      rw [hsz]
      by_cases he : k = s.n
      · subst he; simp [setBlk, fresh, i1]
      · have := i2 k (by omega)
        rw [List.getElem?_append_left (by omega), this]
        simp [setBlk, he]
    · intro k off hk
      simp only at hk
      rw [hla]
      by_cases he : k = s.n
      · subst he; simp [setBlk, fresh, i4 s.n off (Nat.le_refl _)]
      · simp only [setBlk, he, if_false]
        exact i3 k off (by omega)
    · intro k off hk
      simp only at hk
      rw [hla]; exact i4 k off (by omega)
    · simp only
      rw [List.range_succ, List.filter_append, i5]
      congr 1
      · apply List.filter_congr
        intro k hk
        rw [List.mem_range] at hk
        have : k ≠ s.n := by omega
        simp [setBlk, this]
      · simp [setBlk, fresh]
    · intro k
      simp only
      rw [i6]
      by_cases he : k = s.n
      · subst he; simp [setBlk, fresh]
      · simp only [setBlk, he, if_false]
        constructor <;> (rintro ⟨h1, h2⟩; exact ⟨by omega, h2⟩)
    · intro k
      simp only [List.append_nil]
      rw [i7]
      by_cases he : k = s.n
      · subst he; simp [setBlk, fresh]
      · simp only [setBlk, he, if_false]
        have : (k < s.n + 1) ↔ k < s.n := by omega
        simp [this]
  | write k off v =>
    simp only [S.step] at h
    split at h
    · simp at h
    · rename_i hk
      simp only [not_or, Nat.not_le] at hk
      simp only [Option.some.injEq, Prod.mk.injEq] at h
      obtain ⟨rfl, rfl⟩ := h
      have hsz : sizes (es ++ [.write k off v]) = sizes es := by simp [sizes]
      have hsize : ∀ j, (setBlk s.blk k { s.blk k with mem := fun o => if o = off then v else (s.blk k).mem o } j).size = (s.blk j).size := by
        intro j; simp only [setBlk]; split
        · rename_i he; rw [he]
        · rfl
      have hfr : ∀ j, (setBlk s.blk k { s.blk k with mem := fun o => if o = off then v else (s.blk k).mem o } j).freed = (s.blk j).freed := by
        intro j; simp only [setBlk]; split
        · rename_i he; rw [he]
        · rfl
      refine ⟨by simp [hsz, i1], ?_, ?_, ?_, ?_, ?_, ?_⟩
      · intro j hj
        simp only [hsz, hsize]; exact i2 j hj
      · intro j off' hj
        simp only at hj ⊢
        rw [hsize, lastAt_append]
        by_cases he : j = k
        · subst he
          by_cases ho : off' = off
          · subst ho; simp [setBlk, lastAt]
          · have ho' : ¬ off = off' := fun h => ho h.symm
            simp [setBlk, lastAt, ho, ho', i3 j off' hj]
        · have he' : ¬ k = j := fun h => he h.symm
          simp [setBlk, lastAt, he, he', i3 j off' hj]
      · intro j off' hj
        simp only at hj
        rw [lastAt_append, i4 j off' hj]
        have he' : ¬ k = j := by omega
        simp [lastAt, he']
      · simp only [hfr]; exact i5
      · intro j; simp only [hfr]; exact i6 j
      · intro j; simp only [hfr, List.append_nil]; exact i7 j
  | free k =>
    have hsz : sizes (es ++ [.free k]) = sizes es := by simp [sizes]
    have hla : ∀ j off, lastAt j off (es ++ [.free k]) = lastAt j off es := by
      intro j off; rw [lastAt_append]; simp [lastAt]
    obtain ⟨hk, ⟨m, hm, rfl, rfl, hng⟩ | ⟨hm, rfl, o1, rfl, ho1, -, -⟩⟩ := free_cases s s' k o' h
    · refine ⟨by rw [hsz]; exact i1, by rw [hsz]; exact i2, by simpa only [hla] using i3, by simpa only [hla] using i4, i5, i6, ?_⟩
      intro j
      rw [List.count_append, i7]
      have := hng j
      simp [this]
    · have hnf : (s.blk k).freed = false := by
        simp only [check] at hm
        grind
      have hsize : ∀ j, (setBlk s.blk k { s.blk k with freed := true } j).size = (s.blk j).size := by
        intro j; simp only [setBlk]; split
        · rename_i he; rw [he]
        · rfl
      have hmem : ∀ j, (setBlk s.blk k { s.blk k with freed := true } j).mem = (s.blk j).mem := by
        intro j; simp only [setBlk]; split
        · rename_i he; rw [he]
        · rfl
      have hfr : ∀ j, (setBlk s.blk k { s.blk k with freed := true } j).freed = ((s.blk j).freed || j == k) := by
        intro j; simp only [setBlk]; split
        · rename_i he; simp [he]
        · rename_i he; simp [he]
      refine ⟨by rw [hsz]; exact i1, ?_, ?_, by simpa only [hla] using i4, ?_, ?_, ?_⟩
      · intro j hj; simp only [hsz, hsize]; exact i2 j hj
      · intro j off hj; simp only [hla, hsize, hmem]; exact i3 j off hj
      · simp only
        rw [i5, erase_filter _ _ _ List.nodup_range]
        apply List.filter_congr
        intro j _
        rw [hfr]
        simp [bne]
      · intro j
        simp only [List.mem_append, List.mem_singleton, i6, hfr, Bool.or_eq_true, beq_iff_eq]
        constructor
        · rintro (⟨h1, h2⟩ | rfl)
          · exact ⟨h1, .inl h2⟩
          · exact ⟨hk, .inr rfl⟩
        · rintro ⟨h1, h2 | h2⟩
          · exact .inl ⟨h1, h2⟩
          · exact .inr h2
      · intro j
        rw [List.count_append, i7, List.count_append, ho1]
        simp only [hfr]
        by_cases he : j = k
        · subst he; simp [hnf, hk]
        · have he' : ¬ k = j := fun h => he h.symm
          simp [he, he']
  | cleanup =>
    simp only [S.step, Option.some.injEq, Prod.mk.injEq] at h
    obtain ⟨rfl, rfl⟩ := h
    have hsz : sizes (es ++ [.cleanup]) = sizes es := by simp [sizes]
    have hla : ∀ j off, lastAt j off (es ++ [.cleanup]) = lastAt j off es := by
      intro j off; rw [lastAt_append]; simp [lastAt]
    refine ⟨by rw [hsz]; exact i1, by rw [hsz]; exact i2, by simpa only [hla] using i3, by simpa only [hla] using i4, i5, i6, ?_⟩
    intro j
    rw [List.count_append, i7]
    have : (s.alloced.map Out.lost).count (.gone j) = 0 := by
      rw [List.count_eq_zero]
      simp
    omega

theorem inv_steps (b : List Ev) (s s' : S) (a : List Ev) (o o' : List Out) (hi : Inv s a o) (h : s.steps b = some (s', o')) :
    Inv s' (a ++ b) (o ++ o') := by
  induction b generalizing s a o o' with
  | nil =>
    simp only [S.steps, Option.some.injEq, Prod.mk.injEq] at h
    obtain ⟨rfl, rfl⟩ := h
    simpa using hi
  | cons e b ih =>
    simp only [S.steps] at h
    cases h1 : s.step e with
    | none => simp [h1] at h
    | some x =>
      obtain ⟨s1, o1⟩ := x
      simp only [h1] at h
      cases h2 : s1.steps b with
      | none => simp [h2] at h
      | some y =>
        obtain ⟨s2, o2⟩ := y
        simp only [h2, Option.some.injEq, Prod.mk.injEq] at h
        obtain ⟨rfl, rfl⟩ := h
        have := ih s1 (a ++ [e]) (o ++ o1) o2 (inv_step s s1 a o o1 e hi h1) h2
        simpa using this

theorem inv_run (all : Bool) (es : List Ev) (s : S) (o : List Out) (h : S.steps { all := all } es = some (s, o)) : Inv s es o := by
  have : Inv { all := all } [] [] := by constructor <;> simp [sizes, lastAt]
  simpa using inv_steps es _ s [] [] o this h

theorem filled_iff (b : Block) (start : Int) : filled b start = true ↔ ∀ i : Nat, i < 32 → b.mem (start + i) = 0xfd := by
  simp [filled, buffer, List.all_eq_true]

/-- A byte was written into the 32 bytes from an offset, and the last there was
not that of the filler. -/
def Hurt (es : List Ev) (k : Nat) (start : Int) : Prop :=
  ∃ i : Nat, i < 32 ∧ ∃ v, lastAt k (start + i) es = some v ∧ v ≠ 0xfd

theorem filled_hurt (s : S) (es : List Ev) (o : List Out) (hi : Inv s es o) (k : Nat) (hk : k < s.n) (start : Int)
    (hs : ∀ i : Nat, i < 32 → ¬ (0 ≤ start + i ∧ start + i < (s.blk k).size)) :
    filled (s.blk k) start = false ↔ Hurt es k start := by
  rw [← Bool.not_eq_true, filled_iff]
  constructor
  · intro h
    apply Classical.byContradiction
    intro hn
    apply h
    intro i hi'
    rw [hi.mem k _ hk, if_neg (hs i hi')]
    cases hl : lastAt k (start + i) es with
    | none => rfl
    | some v =>
      apply Classical.byContradiction
      intro hv
      exact hn ⟨i, hi', v, hl, hv⟩
  · rintro ⟨i, hi', v, hl, hv⟩ h
    have := h i hi'
    rw [hi.mem k _ hk, hl] at this
    exact hv this

/-- **C219, partial**: what a free of a block reports, without the check of all
blocks: a second free if the block was freed; else a write before the block, if
one of the 32 bytes there was written and not put back; else one behind it;
else nothing, and the block is freed.  Partial: the block is smaller than 2 GiB;
see `C219_size_violated`. -/
theorem C219_free_partial (es : List Ev) (s : S) (o : List Out) (h : S.steps { all := false } es = some (s, o)) (ha : s.all = false)
    (k n : Nat) (hk : (sizes es)[k]? = some n) (hn : n < 2 ^ 31) :
    ∃ s' m, s.step (.free k) = some (s', [m]) ∧
      (m = .doubleFree k ↔ .gone k ∈ o) ∧
      (m = .underrun k ↔ .gone k ∉ o ∧ Hurt es k (-32)) ∧
      (m = .overrun k ↔ .gone k ∉ o ∧ ¬ Hurt es k (-32) ∧ Hurt es k n) ∧
      (m = .gone k ↔ .gone k ∉ o ∧ ¬ Hurt es k (-32) ∧ ¬ Hurt es k n) := by
  have hi := inv_run false es s o h
  have hkn : k < s.n := by
    rw [hi.n]
    exact (List.getElem?_eq_some_iff.mp hk).1
  have hsz : (s.blk k).size = n := by
    have := hi.size k hkn
    rw [hk] at this
    simpa using this.symm
  have hg : .gone k ∈ o ↔ (s.blk k).freed = true := by
    rw [← List.count_pos_iff, hi.gone]
    simp only [hkn, true_and]
    split <;> simp_all
  have hu := filled_hurt s es o hi k hkn (-32) (by intro i hi'; omega)
  have ho := filled_hurt s es o hi k hkn n (by intro i hi'; rw [hsz]; omega)
  have hu' : filled (s.blk k) (-buffer) = false ↔ Hurt es k (-32) := hu
  have ho' : filled (s.blk k) (s.blk k).size = false ↔ Hurt es k n := by rw [hsz]; exact ho
  have hnk : ¬ s.n ≤ k := by omega
  have hsz' : ¬ (2 ^ 31 ≤ (s.blk k).size) := by omega
  by_cases f : (s.blk k).freed = true
  · refine ⟨s, .doubleFree k, by simp [S.step, hnk, check, f], ?_⟩
    simp [hg, f]
  · by_cases u : filled (s.blk k) (-buffer) = false
    · refine ⟨s, .underrun k, by simp [S.step, hnk, check, f, u], ?_⟩
      simp [hg, f, hu'.mp u]
    · by_cases v : filled (s.blk k) (s.blk k).size = false
      · refine ⟨s, .overrun k, ?_, ?_⟩
        · simp only [S.step, hnk, if_false, check, f, u, hsz', v]; simp [f]
        · have := mt hu'.mpr u
          simp [hg, f, this, ho'.mp v]
      · have h1 := mt hu'.mpr u
        have h2 := mt ho'.mpr v
        refine ⟨{ s with alloced := s.alloced.erase k, freedL := s.freedL ++ [k], blk := setBlk s.blk k { s.blk k with freed := true } },
          .gone k, ?_, ?_⟩
        · simp only [S.step, hnk, if_false, check, f, u, hsz', v, ha]; simp [f]
        · simp [hg, f, h1, h2]

/-- **C219**: at the end exactly those blocks are reported as lost that were
allocated and not freed, in the order of their allocation; and no block is freed
twice. -/
theorem C219_lost (all : Bool) (es : List Ev) (s : S) (o : List Out) (h : S.steps { all := all } es = some (s, o)) :
    s.step .cleanup = some (s, ((List.range (sizes es).length).filter fun k => decide (.gone k ∉ o)).map .lost) ∧
    ∀ k, o.count (.gone k) ≤ 1 := by
  have hi := inv_run all es s o h
  constructor
  · simp only [S.step, hi.alloced, hi.n]
    congr 2
    apply congrArg
    apply List.filter_congr
    intro k hk
    rw [List.mem_range, ← hi.n] at hk
    have hg : .gone k ∈ o ↔ (s.blk k).freed = true := by
      rw [← List.count_pos_iff, hi.gone]
      simp only [hk, true_and]
      split <;> simp_all
    simp [hg]
  · intro k
    rw [hi.gone]
    split <;> omega

example : (S.steps { all := false } [.alloc 4, .alloc 2, .alloc 8, .write 0 3 7, .write 1 2 9, .write 2 (-1) 0, .free 0, .free 1,
    .free 2, .free 0, .write 1 2 0xfd, .free 1, .cleanup]).map (fun r => r.2) =
    some [.gone 0, .overrun 1, .underrun 2, .doubleFree 0, .gone 1, .lost 2] := by decide +kernel

/-- **C219**: a byte of a block is what was written there last, and zero before
that. -/
theorem C219_zero (all : Bool) (es : List Ev) (s : S) (o : List Out) (h : S.steps { all := all } es = some (s, o)) (k n : Nat)
    (hk : (sizes es)[k]? = some n) (off : Nat) (ho : off < n) : (s.blk k).mem off = (lastAt k off es).getD 0 := by
  have hi := inv_run all es s o h
  have hkn : k < s.n := by
    rw [hi.n]
    exact (List.getElem?_eq_some_iff.mp hk).1
  have hsz := hi.size k hkn
  rw [hk, Option.some.injEq] at hsz
  rw [hi.mem k off hkn, if_pos (by omega)]

theorem lastAt_mem (k : Nat) (off : Int) (es : List Ev) (v : UInt8) (h : lastAt k off es = some v) : .write k off v ∈ es := by
  induction es with
  | nil => simp [lastAt] at h
  | cons e es ih =>
    simp only [lastAt] at h
    cases h1 : lastAt k off es with
    | some w =>
      simp only [h1, Option.some.injEq] at h
      subst h
      exact List.mem_cons_of_mem _ (ih h1)
    | none =>
      simp only [h1] at h
      cases e with
      | write j o w =>
        simp only at h
        split at h
        · rename_i he
          simp only [Option.some.injEq] at h
          rw [he.1, he.2, h]
          exact List.mem_cons_self
        · simp at h
      | _ => simp at h

theorem checks_fine (blk : Nat → Block) (f : Bool) (l : List Nat) (h : ∀ k ∈ l, check k (blk k) f = .fine) :
    checks blk f l = some [] := by
  induction l with
  | nil => rfl
  | cons k l ih =>
    simp only [checks, h k List.mem_cons_self]
    exact ih fun j hj => h j (List.mem_cons_of_mem _ hj)

/-- **C219, partial**: a program that writes only into its blocks gets no message
at the first free of any of them, with the check of all blocks or without.
Partial: the blocks are smaller than 2 GiB. -/
theorem C219_clean_partial (all : Bool) (es : List Ev) (s : S) (o : List Out) (h : S.steps { all := all } es = some (s, o))
    (hw : ∀ (k : Nat) (off : Int) v, .write k off v ∈ es → 0 ≤ off ∧ ∃ n : Nat, (sizes es)[k]? = some n ∧ off < n)
    (hs : ∀ n ∈ sizes es, n < 2 ^ 31) (k : Nat) (hk : k < (sizes es).length) (hg : .gone k ∉ o) :
    ∃ s', s.step (.free k) = some (s', [.gone k]) := by
  have hi := inv_run all es s o h
  rw [← hi.n] at hk
  have hfr : (s.blk k).freed = false := by
    have := hi.gone k
    rw [List.count_eq_zero_of_not_mem hg] at this
    cases hb : (s.blk k).freed with
    | false => rfl
    | true => simp [hk, hb] at this
  have hfine : ∀ j f, j < s.n → (s.blk j).freed = f → check j (s.blk j) f = .fine := by
    intro j f hj hf
    have hsz := hi.size j hj
    have hlt : (s.blk j).size < 2 ^ 31 := hs _ (List.mem_of_getElem? hsz)
    have hu := filled_hurt s es o hi j hj (-32) (by intro i hi'; omega)
    have ho := filled_hurt s es o hi j hj (s.blk j).size (by intro i hi'; omega)
    have hu1 : filled (s.blk j) (-buffer) = true := by
      cases hb : filled (s.blk j) (-buffer) with
      | true => rfl
      | false =>
        obtain ⟨i, hi', v, hl, -⟩ := hu.mp hb
        have := (hw _ _ _ (lastAt_mem _ _ _ _ hl)).1
        omega
    have ho1 : filled (s.blk j) (s.blk j).size = true := by
      cases hb : filled (s.blk j) (s.blk j).size with
      | true => rfl
      | false =>
        obtain ⟨i, hi', v, hl, -⟩ := ho.mp hb
        obtain ⟨n, h1, h2⟩ := (hw _ _ _ (lastAt_mem _ _ _ _ hl)).2
        rw [hsz, Option.some.injEq] at h1
        omega
    have hlt' : ¬ (2 ^ 31 ≤ (s.blk j).size) := by omega
    simp only [check, hf, hu1, ho1, hlt', if_false]
    simp
  have c1 : checks s.blk false (s.alloced.erase k) = some [] := by
    apply checks_fine
    intro j hj
    have := List.mem_of_mem_erase hj
    rw [hi.alloced, List.mem_filter, List.mem_range] at this
    exact hfine j false this.1 (by simpa using this.2)
  have c2 : checks s.blk true s.freedL = some [] := by
    apply checks_fine
    intro j hj
    have := (hi.freedL j).mp hj
    exact hfine j true this.1 this.2
  have hnk : ¬ s.n ≤ k := by omega
  refine ⟨{ s with alloced := s.alloced.erase k, freedL := s.freedL ++ [k], blk := setBlk s.blk k { s.blk k with freed := true } }, ?_⟩
  simp only [S.step, hnk, if_false, hfine k false hk hfr, c1, c2]
  split <;> simp

example : (S.steps { all := true } [.alloc 4, .alloc 2, .alloc 8, .write 1 (-3) 7, .free 0, .write 0 4 9, .free 2, .free 1, .cleanup]).map
    (fun r => r.2) = some [.underrun 1, .gone 0, .underrun 1, .overrun 0, .gone 2, .underrun 1, .lost 1] := by decide +kernel

/-- **C219**: with the check of all blocks, a free finds every other block that was
written before or behind, whether it is freed or not. -/
theorem C219_all (es : List Ev) (s s' : S) (o o' : List Out) (h : S.steps { all := true } es = some (s, o)) (ha : s.all = true)
    (k j n : Nat) (hf : s.step (.free k) = some (s', o')) (hk : .gone k ∈ o') (hj : j ≠ k) (hn : (sizes es)[j]? = some n)
    (hh : Hurt es j (-32) ∨ Hurt es j n) : .underrun j ∈ o' ∨ .overrun j ∈ o' := by
  have hi := inv_run true es s o h
  have hjn : j < s.n := by
    rw [hi.n]
    exact (List.getElem?_eq_some_iff.mp hn).1
  have hsz : (s.blk j).size = n := by
    have := hi.size j hjn
    rw [hn] at this
    simpa using this.symm
  have hu := filled_hurt s es o hi j hjn (-32) (by intro i hi'; omega)
  have ho := filled_hurt s es o hi j hjn n (by intro i hi'; rw [hsz]; omega)
  have found : ∀ f l a, (s.blk j).freed = f → j ∈ l → checks s.blk f l = some a → .underrun j ∈ a ∨ .overrun j ∈ a := by
    intro f l
    induction l with
    | nil => simp
    | cons x l ih =>
      intro a hb hm hc
      simp only [checks] at hc
      rcases List.mem_cons.mp hm with rfl | hm
      · have : check j (s.blk j) f = .wild ∨ check j (s.blk j) f = .msg (.underrun j) ∨ check j (s.blk j) f = .msg (.overrun j) := by
          have hu' : filled (s.blk j) (-buffer) = false ↔ Hurt es j (-32) := hu
          simp only [check, hb, hsz]
          rcases hh with g | g
          · simp [hu'.mpr g]
          · by_cases g2 : filled (s.blk j) (-buffer) = false
            · simp [g2]
            · simp only [g2, ho.mpr g]; by_cases g3 : 2 ^ 31 ≤ n <;> simp only [g3] <;> simp
        rcases this with g | g | g
        · simp [g] at hc
        all_goals
          simp only [g] at hc
          cases h2 : checks s.blk f l with
          | none => simp [h2] at hc
          | some os =>
            simp only [h2, Option.some.injEq] at hc
            subst hc
            simp
      · split at hc
        · simp at hc
        · exact ih a hb hm hc
        · cases h2 : checks s.blk f l with
          | none => simp [h2] at hc
          | some os =>
            simp only [h2, Option.some.injEq] at hc
            subst hc
            rcases ih os hb hm h2 with g | g
            · exact .inl (List.mem_cons_of_mem _ g)
            · exact .inr (List.mem_cons_of_mem _ g)
  obtain ⟨-, ⟨m, -, -, rfl, hng⟩ | ⟨-, -, o1, rfl, -, -, h3⟩⟩ := free_cases s s' k o' hf
  · rw [List.mem_singleton] at hk
    exact absurd hk.symm (hng k)
  · obtain ⟨a, b, ca, cb, rfl⟩ := h3 ha
    cases hb : (s.blk j).freed with
    | false =>
      have hm : j ∈ s.alloced.erase k := by
        rw [List.mem_erase_of_ne hj, hi.alloced, List.mem_filter, List.mem_range]
        exact ⟨hjn, by simp [hb]⟩
      rcases found false _ a hb hm ca with g | g <;> simp [g]
    | true =>
      have hm : j ∈ s.freedL := (hi.freedL j).mpr ⟨hjn, hb⟩
      rcases found true _ b hb hm cb with g | g <;> simp [g]

/-- **C219 is violated**: the size of a block of 2 GiB or more is kept in an
`int32_t`, and its free looks for the filler in front of it. -/
theorem C219_size_violated (n : Nat) (h : 2 ^ 31 ≤ n) (_h : n < 2 ^ 32) : S.steps { all := false } [.alloc n, .free 0] = none := by
  have hf : filled (fresh n) (-buffer) = true := by
    rw [filled_iff]
    intro i hi
    simp only [fresh, buffer]
    rw [if_neg (by omega)]
  have hs : (fresh n).size = n := rfl
  have hfr : (fresh n).freed = false := rfl
  simp only [S.steps, S.step, setBlk, check, if_true, hf, hs, hfr, h]
  simp

/-- **C219 is violated**: a write to a block after its free is not found, even
with the check of all blocks. -/
theorem C219_after_violated : ∀ (all : Bool) (i : Nat), i < 4 →
    (S.steps { all := all } [.alloc 4, .alloc 1, .free 0, .write 0 i 7, .free 1, .cleanup]).map (fun r => r.2) =
      some [.gone 0, .gone 1] := by decide +kernel

end Gensio.Memtrack
