import Verif.Lemmas.StdioLifeStep3

/-!
# The steps in the life of the stdio gensio: a handler is gone
-/

set_option maxHeartbeats 1000000

namespace Gensio.StdioLife

theorem cleared_in (s : S) (buf : Bool) (w : W) (hi : Inv s) (hb : s.io.inClr = true) :
    s.fdCleared .io true buf w ≠ none ∧
      ∀ s' os, s.fdCleared .io true buf w = some (s', os) → Inv s' := by
  obtain ⟨⟨⟨⟨a1, a2, a3, a4, a5, a6, a7, a8, a9, a10, a11, a12, a13, a14, a15, a16, a17, a18, a19, a20, a21⟩,
    ⟨b1, b2, b3, b4, b5, b6, b7, b8, b9, b10, b11, b12, b13, b14, b15, b16, b17, b18, b19, b20, b21⟩,
    d1, d2, d3, d4, d5, d6, d7, d8⟩, m1, m2, m3, m4, m5⟩, m6, m7⟩ := hi
  obtain ⟨e1, e2, e3⟩ := a5 hb
  have e4 := a3 e1
  have e5 : s.io.inI ≠ none := by rw [← e4]; exact e1
  have e6 : s.io.here = true := a20 (.inl e1)
  have e7 := a19 e2 e6
  have hcl : s.closing = none := by
    cases h : s.closing with
    | none => rfl
    | some _ => exact absurd (d8 (by simp [h])).1 e5
  have ht : s.timer = false := by
    cases h : s.timer with
    | false => rfl
    | true => exact absurd hcl (m1 h)
  obtain ⟨i, hii⟩ := Option.ne_none_iff_exists'.mp e5
  have e8 : s.io.inReg = some i := by rw [e4, hii]
  have hp : s.nextPid ≠ 0 := by
    intro h
    exact absurd e2 (by simp [(d4 h)])
  have hr : s.ref ≠ 0 := by simp only [m6, S.held, e6, n_true]; omega
  have heq : s.fdCleared .io true buf w =
      S.clearedNext { s with io := { s.io with inReg := none, inClr := false, inH := false, inI := none } } .io buf w := by
    simp [S.fdCleared, S.ch, S.set, e8, hii]
  rw [heq]
  cases ho : s.io.outReg with
  | some j =>
    have ho' : s.io.outReg ≠ none := by simp [ho]
    have hH : s.io.outH = true := by rw [a2, ho]; rfl
    simp [S.clearedNext, S.ch, hH, S.deref, hr]
    simp only [S.ch, S.goes] at *
    refine ⟨?_, ?_, ?_⟩
    · clear m6 m7 heq
      shape_split <;> grind [S.ch, S.goes]
    · simp [S.held, e8] at m6 ⊢; omega
    · rw [Bool.eq_iff_iff]; simp; omega
  | none =>
    have hH : s.io.outH = false := by rw [a2, ho]; rfl
    have hI : s.io.outI = none := by
      cases h : s.io.outI with
      | none => rfl
      | some _ => exact absurd ho (d5 (by simp [h]))
    by_cases hx : s.err.outH = false ∧ s.err.outI ≠ none
    · obtain ⟨x1, x2⟩ := hx
      have x3 : s.err.outReg = none := by
        cases h : s.err.outReg with
        | none => rfl
        | some _ => rw [b2, h] at x1; simp at x1
      obtain ⟨k, hk⟩ := Option.ne_none_iff_exists'.mp x2
      simp [S.clearedNext, S.ch, hH, x1, hk, e2, S.closeIod, ho, x3, d1.2]
      refine check_both _ .io .io buf w ?_ (by simp [hcl])
      simp only [S.ch, S.goes] at *
      refine ⟨⟨⟨?_, ?_, ?_, ?_, ?_, ?_, ?_, ?_, ?_, ?_, ?_, ?_, ?_, ?_, ?_, ?_, ?_, ?_, ?_, ?_, ?_⟩,
      ⟨?_, ?_, ?_, ?_, ?_, ?_, ?_, ?_, ?_, ?_, ?_, ?_, ?_, ?_, ?_, ?_, ?_, ?_, ?_, ?_, ?_⟩, ?_, ?_, ?_, ?_, ?_, ?_, ?_, ?_⟩, ?_, ?_, ?_, ?_, ?_, ?_, ?_, ?_, ?_, ?_⟩
      rotate_right 2
      · simp [S.held, e8, ho, x3] at m6 ⊢; omega
      · simp [m7, hr]
      all_goals clear m6 m7 heq
      all_goals grind [S.ch, S.goes, cases C]
    · have heq2 : S.clearedNext { s with io := { s.io with inReg := none, inClr := false, inH := false, inI := none } } .io buf w =
          S.check { s with io := { s.io with inReg := none, inClr := false, inH := false, inI := none } } .io buf w := by
        simp only [S.clearedNext, S.ch]
        rw [if_pos (by simp [e2, hH]), if_neg]
        intro h; apply hx; simp at h
        exact ⟨h.1, by intro h'; simp [h'] at h⟩
      rw [heq2]
      refine check_both _ .io .io buf w ?_ (by simp [hcl])
      simp only [S.ch, S.goes] at *
      refine ⟨⟨⟨?_, ?_, ?_, ?_, ?_, ?_, ?_, ?_, ?_, ?_, ?_, ?_, ?_, ?_, ?_, ?_, ?_, ?_, ?_, ?_, ?_⟩,
      ⟨?_, ?_, ?_, ?_, ?_, ?_, ?_, ?_, ?_, ?_, ?_, ?_, ?_, ?_, ?_, ?_, ?_, ?_, ?_, ?_, ?_⟩, ?_, ?_, ?_, ?_, ?_, ?_, ?_, ?_⟩, ?_, ?_, ?_, ?_, ?_, ?_, ?_, ?_, ?_, ?_⟩
      rotate_right 2
      · simp [S.held, e8, ho] at m6 ⊢; omega
      · simp [m7, hr]
      all_goals clear m6 m7 heq heq2
      all_goals grind [S.ch, S.goes, cases C]

theorem cleared_out (s : S) (buf : Bool) (w : W) (hi : Inv s) (hb : s.io.outClr = true) :
    s.fdCleared .io false buf w ≠ none ∧
      ∀ s' os, s.fdCleared .io false buf w = some (s', os) → Inv s' := by
  obtain ⟨⟨⟨⟨a1, a2, a3, a4, a5, a6, a7, a8, a9, a10, a11, a12, a13, a14, a15, a16, a17, a18, a19, a20, a21⟩,
    ⟨b1, b2, b3, b4, b5, b6, b7, b8, b9, b10, b11, b12, b13, b14, b15, b16, b17, b18, b19, b20, b21⟩,
    d1, d2, d3, d4, d5, d6, d7, d8⟩, m1, m2, m3, m4, m5⟩, m6, m7⟩ := hi
  obtain ⟨e1, e2, e3⟩ := a6 hb
  have e4 := a4 e1
  have e5 : s.io.outI ≠ none := by rw [← e4]; exact e1
  have e6 : s.io.here = true := a20 (.inr e1)
  have e7 := a19 e2 e6
  have hcl : s.closing = none := by
    cases h : s.closing with
    | none => rfl
    | some _ => exact absurd (d8 (by simp [h])).2.1 e5
  have ht : s.timer = false := by
    cases h : s.timer with
    | false => rfl
    | true => exact absurd hcl (m1 h)
  obtain ⟨i, hii⟩ := Option.ne_none_iff_exists'.mp e5
  have e8 : s.io.outReg = some i := by rw [e4, hii]
  have hp : s.nextPid ≠ 0 := by
    intro h
    exact absurd e2 (by simp [(d4 h)])
  have hr : s.ref ≠ 0 := by simp only [m6, S.held, e6, n_true]; omega
  have e9 : s.io.inI ≠ some i := by
    intro h; exact absurd hii (d2 i h).1
  have heq : s.fdCleared .io false buf w =
      S.clearedNext { s with io := { s.io with outReg := none, outClr := false, outH := false, outI := none } } .io buf w := by
    simp [S.fdCleared, S.ch, S.set, e8, hii, e9]
  rw [heq]
  cases ho : s.io.inReg with
  | some j =>
    have ho' : s.io.inReg ≠ none := by simp [ho]
    have hH : s.io.inH = true := by rw [a1, ho]; rfl
    simp [S.clearedNext, S.ch, hH, S.deref, hr]
    simp only [S.ch, S.goes] at *
    refine ⟨?_, ?_, ?_⟩
    · clear m6 m7 heq
      shape_split <;> grind [S.ch, S.goes]
    · simp [S.held, e8] at m6 ⊢; omega
    · rw [Bool.eq_iff_iff]; simp; omega
  | none =>
    have hH : s.io.inH = false := by rw [a1, ho]; rfl
    have hI : s.io.inI = none := by
      cases h : s.io.inI with
      | none => rfl
      | some _ => exact absurd ho (d6 (by simp [h]))
    by_cases hx : s.err.outH = false ∧ s.err.outI ≠ none
    · obtain ⟨x1, x2⟩ := hx
      have x3 : s.err.outReg = none := by
        cases h : s.err.outReg with
        | none => rfl
        | some _ => rw [b2, h] at x1; simp at x1
      obtain ⟨k, hk⟩ := Option.ne_none_iff_exists'.mp x2
      simp [S.clearedNext, S.ch, hH, x1, hk, e2, S.closeIod, ho, x3, d1.2]
      refine check_both _ .io .io buf w ?_ (by simp [hcl])
      simp only [S.ch, S.goes] at *
      refine ⟨⟨⟨?_, ?_, ?_, ?_, ?_, ?_, ?_, ?_, ?_, ?_, ?_, ?_, ?_, ?_, ?_, ?_, ?_, ?_, ?_, ?_, ?_⟩,
      ⟨?_, ?_, ?_, ?_, ?_, ?_, ?_, ?_, ?_, ?_, ?_, ?_, ?_, ?_, ?_, ?_, ?_, ?_, ?_, ?_, ?_⟩, ?_, ?_, ?_, ?_, ?_, ?_, ?_, ?_⟩, ?_, ?_, ?_, ?_, ?_, ?_, ?_, ?_, ?_, ?_⟩
      rotate_right 2
      · simp [S.held, e8, ho, x3] at m6 ⊢; omega
      · simp [m7, hr]
      all_goals clear m6 m7 heq
      all_goals grind [S.ch, S.goes, cases C]
    · have heq2 : S.clearedNext { s with io := { s.io with outReg := none, outClr := false, outH := false, outI := none } } .io buf w =
          S.check { s with io := { s.io with outReg := none, outClr := false, outH := false, outI := none } } .io buf w := by
        simp only [S.clearedNext, S.ch]
        rw [if_pos (by simp [e2, hH]), if_neg]
        intro h; apply hx; simp at h
        exact ⟨h.1, by intro h'; simp [h'] at h⟩
      rw [heq2]
      refine check_both _ .io .io buf w ?_ (by simp [hcl])
      simp only [S.ch, S.goes] at *
      refine ⟨⟨⟨?_, ?_, ?_, ?_, ?_, ?_, ?_, ?_, ?_, ?_, ?_, ?_, ?_, ?_, ?_, ?_, ?_, ?_, ?_, ?_, ?_⟩,
      ⟨?_, ?_, ?_, ?_, ?_, ?_, ?_, ?_, ?_, ?_, ?_, ?_, ?_, ?_, ?_, ?_, ?_, ?_, ?_, ?_, ?_⟩, ?_, ?_, ?_, ?_, ?_, ?_, ?_, ?_⟩, ?_, ?_, ?_, ?_, ?_, ?_, ?_, ?_, ?_, ?_⟩
      rotate_right 2
      · simp [S.held, e8, ho] at m6 ⊢; omega
      · simp [m7, hr]
      all_goals clear m6 m7 heq heq2
      all_goals grind [S.ch, S.goes, cases C]

theorem cleared_err (s : S) (buf : Bool) (w : W) (hi : Inv s) (hb : s.err.outClr = true) :
    s.fdCleared .err false buf w ≠ none ∧
      ∀ s' os, s.fdCleared .err false buf w = some (s', os) → Inv s' := by
  obtain ⟨⟨⟨⟨a1, a2, a3, a4, a5, a6, a7, a8, a9, a10, a11, a12, a13, a14, a15, a16, a17, a18, a19, a20, a21⟩,
    ⟨b1, b2, b3, b4, b5, b6, b7, b8, b9, b10, b11, b12, b13, b14, b15, b16, b17, b18, b19, b20, b21⟩,
    d1, d2, d3, d4, d5, d6, d7, d8⟩, m1, m2, m3, m4, m5⟩, m6, m7⟩ := hi
  obtain ⟨e1, e2, e3⟩ := b6 hb
  have e4 := b4 e1
  have e5 : s.err.outI ≠ none := by rw [← e4]; exact e1
  have e6 : s.err.here = true := b20 (.inr e1)
  have e7 := b19 e2 e6
  have hcl : s.closing = none := by
    cases h : s.closing with
    | none => rfl
    | some _ => exact absurd (d8 (by simp [h])).2.2.1 e5
  have ht : s.timer = false := by
    cases h : s.timer with
    | false => rfl
    | true => exact absurd hcl (m1 h)
  obtain ⟨i, hii⟩ := Option.ne_none_iff_exists'.mp e5
  have e8 : s.err.outReg = some i := by rw [e4, hii]
  have hp : s.nextPid ≠ 0 := by
    intro h
    exact absurd e2 (by simp [(d4 h)])
  have hr : s.ref ≠ 0 := by simp only [m6, S.held, e6, n_true]; omega
  have e9 : s.err.inI ≠ some i := by
    intro h; simp [d1.1] at h
  have heq : s.fdCleared .err false buf w =
      S.clearedNext { s with err := { s.err with outReg := none, outClr := false, outH := false, outI := none } } .err buf w := by
    simp [S.fdCleared, S.ch, S.set, e8, hii, e9]
  rw [heq]
  have hH : s.err.inH = false := by rw [b1, d1.2]; rfl
  simp [S.clearedNext, S.ch, hH, e2]
  refine check_both _ .err .err buf w ?_ (by simp [hcl])
  simp only [S.ch, S.goes] at *
  refine ⟨⟨⟨?_, ?_, ?_, ?_, ?_, ?_, ?_, ?_, ?_, ?_, ?_, ?_, ?_, ?_, ?_, ?_, ?_, ?_, ?_, ?_, ?_⟩,
      ⟨?_, ?_, ?_, ?_, ?_, ?_, ?_, ?_, ?_, ?_, ?_, ?_, ?_, ?_, ?_, ?_, ?_, ?_, ?_, ?_, ?_⟩, ?_, ?_, ?_, ?_, ?_, ?_, ?_, ?_⟩, ?_, ?_, ?_, ?_, ?_, ?_, ?_, ?_, ?_, ?_⟩
  rotate_right 2
  · simp [S.held, e8] at m6 ⊢; omega
  · simp [m7, hr]
  all_goals clear m6 m7 heq
  all_goals grind [S.ch, S.goes, cases C]


theorem step_both (s : S) (e : Ev) (hi : Inv s) (hc : Careful s e) :
    s.step e ≠ none ∧ ∀ s' os, s.step e = some (s', os) → Inv s' := by
  have same : ∀ os0, (some (s, os0) : Option (S × List Out)) ≠ none ∧
      ∀ s' os, (some (s, os0) : Option (S × List Out)) = some (s', os) → Inv s' := by
    intro os0
    refine ⟨by simp, ?_⟩
    intro s' os h
    simp only [Option.some.injEq, Prod.mk.injEq] at h
    rw [← h.1]; exact hi
  have pure : ∀ r : S × List Out, Inv r.1 → (some r : Option (S × List Out)) ≠ none ∧
      ∀ s' os, (some r : Option (S × List Out)) = some (s', os) → Inv s' := by
    intro r hr
    refine ⟨by simp, ?_⟩
    intro s' os h
    simp only [Option.some.injEq] at h
    rw [h] at hr; exact hr
  cases e with
  | «open» c e =>
    cases c
    · exact openCall_io s e hi hc
    · exact openCall_err s e hi hc
  | close c d =>
    have hd : d = true := hc.2.2
    subst hd
    exact pure _ (closeCall_inv s c hi hc)
  | free c => exact pure (_, _) (freeCall_inv s c hi hc)
  | freeEnd c =>
    simp only [S.step]
    split
    · rename_i h; exact freeEnd_both s c hi h
    · exact same _
  | alloc => exact pure _ (alloc_inv s hi hc)
  | waitTask w => exact pure _ (waitTask_inv s w hi)
  | exitCode => exact same _
  | run c =>
    simp only [S.step]
    split
    · rename_i h; exact runOp_both s c hi h
    · exact same _
  | cleared c wr buf w =>
    cases wr <;> simp only [S.step, if_true, Bool.false_eq_true, if_false]
    · by_cases h : (s.ch c).outClr = true
      · rw [if_pos h]
        cases c
        · exact cleared_out s buf w hi h
        · exact cleared_err s buf w hi h
      · rw [if_neg h]; exact same _
    · by_cases h : (s.ch c).inClr = true
      · rw [if_pos h]
        cases c
        · exact cleared_in s buf w hi h
        · exact absurd hi.core.noIn.2 (hi.core.er.inC h).1
      · rw [if_neg h]; exact same _
  | timeout buf w =>
    simp only [S.step]
    split
    · rename_i h
      obtain ⟨c, hcl, hm⟩ := timeout_mid s hi h
      exact check_both _ .io c buf w hm (by simp [hcl])
    · exact same _
  | cbRet c =>
    simp only [S.step]
    split
    · rename_i h; exact cbRet_both s c hi h hc
    · exact same _

end Gensio.StdioLife
