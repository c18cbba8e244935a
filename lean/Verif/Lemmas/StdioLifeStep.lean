import Verif.Lemmas.StdioLife

/-!
# The steps in the life of the stdio gensio
-/

set_option maxHeartbeats 1000000

namespace Gensio.StdioLife

theorem deref_ne (s : S) (h : s.ref ≠ 0) : s.deref ≠ none := by simp [S.deref, h]

theorem deref_eq (s s' : S) (h : s.deref = some s') : s' = { s with ref := s.ref - 1, freed := s.ref == 1 } := by
  simp only [S.deref] at h
  split at h
  · simp at h
  · simpa using h.symm

/-- After the last reference is given back. -/
theorem deref_fd (k : Nat) (h : k ≠ 0) : (k == 1) = (k - 1 == 0) := by
  rw [Bool.eq_iff_iff]; simp; omega

theorem cbRet_both (s : S) (c : C) (hi : Inv s) (hb : (s.ch c).inCb = true) (hf : (s.ch c).freeing = false) :
    s.cbRet c ≠ none ∧ ∀ s' os, s.cbRet c = some (s', os) → Inv s' := by
  obtain ⟨⟨⟨⟨a1, a2, a3, a4, a5, a6, a7, a8, a9, a10, a11, a12, a13, a14, a15, a16, a17, a18, a19, a20, a21⟩,
    ⟨b1, b2, b3, b4, b5, b6, b7, b8, b9, b10, b11, b12, b13, b14, b15, b16, b17, b18, b19, b20, b21⟩,
    d1, d2, d3, d4, d5, d6, d7, d8⟩, m1, m2, m3, m4, m5⟩, m6, m7⟩ := hi
  have hx : ((s.ch c).inFree && (s.ch c).here) = false := by
    clear m6; cases c <;> simp only [S.ch] at * <;> grind
  have h0 : s.ref ≠ 0 := by
    cases c <;> simp only [S.ch] at hb <;> simp only [m6, S.held, hb, n_true] <;> omega
  constructor
  · have h1 : ∀ g, S.deref (s.set c g) ≠ none := fun g => deref_ne _ (by cases c <;> exact h0)
    simp only [S.cbRet, hx, Bool.false_eq_true, if_false]
    split
    · rename_i hx; exact absurd hx (h1 _)
    · simp
  · intro s' os h
    simp only [S.cbRet, hx, Bool.false_eq_true, if_false] at h
    split at h
    · simp at h
    · rename_i q hq
      have := deref_eq _ _ hq
      simp only [Option.some.injEq, Prod.mk.injEq] at h
      obtain ⟨h, -⟩ := h
      subst h; subst this; clear hq
      cases c
      · simp only [S.ch, S.set, S.goes] at *
        refine ⟨?_, ?_, ?_⟩
        · clear m6 m7
          shape_split <;> grind [S.ch, S.goes]
        · simp [S.held, hb] at m6 ⊢; omega
        · exact deref_fd _ h0
      · simp only [S.ch, S.set, S.goes] at *
        refine ⟨?_, ?_, ?_⟩
        · clear m6 m7
          shape_split <;> grind [S.ch, S.goes]
        · simp [S.held, hb] at m6 ⊢; omega
        · exact deref_fd _ h0

theorem freeEnd_both (s : S) (c : C) (hi : Inv s) (hb : (s.ch c).freeing = true) :
    s.freeEnd c ≠ none ∧ ∀ s' os, s.freeEnd c = some (s', os) → Inv s' := by
  obtain ⟨⟨⟨⟨a1, a2, a3, a4, a5, a6, a7, a8, a9, a10, a11, a12, a13, a14, a15, a16, a17, a18, a19, a20, a21⟩,
    ⟨b1, b2, b3, b4, b5, b6, b7, b8, b9, b10, b11, b12, b13, b14, b15, b16, b17, b18, b19, b20, b21⟩,
    d1, d2, d3, d4, d5, d6, d7, d8⟩, m1, m2, m3, m4, m5⟩, m6, m7⟩ := hi
  have hr : (s.ch c).here = true := by clear m6; cases c <;> simp only [S.ch] at * <;> grind
  have h0 : s.ref ≠ 0 := by
    cases c <;> simp only [S.ch] at hr <;> simp only [m6, S.held, hr, n_true] <;> omega
  constructor
  · have h1 : ∀ g, S.deref (s.set c g) ≠ none := fun g => deref_ne _ (by cases c <;> exact h0)
    simp only [S.freeEnd, hr, if_true, Bool.false_eq_true, if_false]
    split
    · rename_i hx; exact absurd hx (h1 _)
    · simp
  · intro s' os h
    simp only [S.freeEnd, hr, if_true, Bool.false_eq_true, if_false] at h
    split at h
    · simp at h
    · rename_i q hq
      have := deref_eq _ _ hq
      simp only [Option.some.injEq, Prod.mk.injEq] at h
      obtain ⟨h, -⟩ := h
      subst h; subst this; clear hq
      cases c
      · simp only [S.ch, S.set, S.goes] at *
        refine ⟨?_, ?_, ?_⟩
        · clear m6 m7
          shape_split <;> grind [S.ch, S.goes]
        · simp [S.held, hr] at m6 ⊢; omega
        · exact deref_fd _ h0
      · simp only [S.ch, S.set, S.goes] at *
        refine ⟨?_, ?_, ?_⟩
        · clear m6 m7
          shape_split <;> grind [S.ch, S.goes]
        · simp [S.held, hr] at m6 ⊢; omega
        · exact deref_fd _ h0

theorem reg_iff (x y : Option Nat) (h : x ≠ none → x = y) : (x.isSome && x == y) = true ↔ x ≠ none := by
  cases x with
  | none => simp
  | some v => simp [← h (by simp)]

theorem runOp_both (s : S) (c : C) (hi : Inv s) (hb : (s.ch c).opPend = true) :
    s.runOp c ≠ none ∧ ∀ s' os, s.runOp c = some (s', os) → Inv s' := by
  obtain ⟨⟨⟨⟨a1, a2, a3, a4, a5, a6, a7, a8, a9, a10, a11, a12, a13, a14, a15, a16, a17, a18, a19, a20, a21⟩,
    ⟨b1, b2, b3, b4, b5, b6, b7, b8, b9, b10, b11, b12, b13, b14, b15, b16, b17, b18, b19, b20, b21⟩,
    d1, d2, d3, d4, d5, d6, d7, d8⟩, m1, m2, m3, m4, m5⟩, m6, m7⟩ := hi
  have h0 : s.ref ≠ 0 := by
    cases c <;> simp only [S.ch] at hb <;> simp only [m6, S.held, hb, n_true] <;> omega
  have ho' : (s.ch c).outI ≠ none := by
    clear m6; cases c
    · simp only [S.ch] at *
      rcases a13 hb with h | h
      · have := (a12 h).1; rw [← a4 this]; exact this
      · have := (a11 h).2.1; rw [← a4 this]; exact this
    · simp only [S.ch] at *
      rcases b13 hb with h | h
      · have := (b12 h).1; rw [← b4 this]; exact this
      · have := (b11 h).2.1; rw [← b4 this]; exact this
  have ho : (s.ch c).outI.isNone = false := by
    cases hq : (s.ch c).outI with
    | none => exact absurd hq ho'
    | some _ => rfl
  constructor
  · have h1 : ∀ g, S.deref (s.set c g) ≠ none := fun g => deref_ne _ (by cases c <;> exact h0)
    simp only [S.runOp, ho, Bool.and_false, Bool.false_eq_true, if_false]
    split
    · rename_i hx; exact absurd hx (h1 _)
    · simp
  · intro s' os h
    simp only [S.runOp, ho, Bool.and_false, Bool.false_eq_true, if_false] at h
    split at h
    · simp at h
    · rename_i q hq
      have := deref_eq _ _ hq
      simp only [Option.some.injEq, Prod.mk.injEq] at h
      obtain ⟨h, -⟩ := h
      subst h; subst this; clear hq
      have f1 := reg_iff _ _ a3
      have f2 := reg_iff _ _ a4
      have f3 := reg_iff _ _ b3
      have f4 := reg_iff _ _ b4
      cases hd : (s.ch c).defClose <;> simp only [Bool.false_eq_true, if_false, if_true]
      all_goals cases c
      · simp only [S.ch, S.set, S.goes] at *
        refine ⟨?_, ?_, ?_⟩
        · clear m6 m7
          shape_split <;> grind [S.ch, S.goes]
        · simp [S.held, hb] at m6 ⊢; omega
        · exact deref_fd _ h0
      · simp only [S.ch, S.set, S.goes] at *
        refine ⟨?_, ?_, ?_⟩
        · clear m6 m7
          shape_split <;> grind [S.ch, S.goes]
        · simp [S.held, hb] at m6 ⊢; omega
        · exact deref_fd _ h0
      · simp only [S.ch, S.set, S.goes] at *
        refine ⟨?_, ?_, ?_⟩
        · clear m6 m7
          shape_split <;> grind [S.ch, S.goes]
        · simp [S.held, hb] at m6 ⊢; omega
        · exact deref_fd _ h0
      · simp only [S.ch, S.set, S.goes] at *
        refine ⟨?_, ?_, ?_⟩
        · clear m6 m7
          shape_split <;> grind [S.ch, S.goes]
        · simp [S.held, hb] at m6 ⊢; omega
        · exact deref_fd _ h0

theorem alloc_inv (s : S) (hi : Inv s) (hc : Careful s .alloc) : Inv s.alloc.1 := by
  simp only [S.alloc]
  split
  · exact hi
  split
  · exact hi
  rename_i hh
  obtain ⟨⟨⟨⟨a1, a2, a3, a4, a5, a6, a7, a8, a9, a10, a11, a12, a13, a14, a15, a16, a17, a18, a19, a20, a21⟩,
    ⟨b1, b2, b3, b4, b5, b6, b7, b8, b9, b10, b11, b12, b13, b14, b15, b16, b17, b18, b19, b20, b21⟩,
    d1, d2, d3, d4, d5, d6, d7, d8⟩, m1, m2, m3, m4, m5⟩, m6, m7⟩ := hi
  simp only [Careful, S.ch, S.goes, Bool.not_eq_true] at *
  have h1 := hc.1
  refine ⟨?_, ?_, ?_⟩
  · clear m6 m7
    shape_split <;> grind [S.ch, S.goes]
  · simp [S.held, hh, h1] at m6 ⊢; omega
  · simp [S.held, hh, h1] at m6 m7 ⊢; grind

theorem waitTask_inv (s : S) (w : W) (hi : Inv s) : Inv (s.waitTask w).1 := by
  simp only [S.waitTask]
  split
  · exact hi
  split
  · exact hi
  rename_i p hp _
  obtain ⟨⟨⟨⟨a1, a2, a3, a4, a5, a6, a7, a8, a9, a10, a11, a12, a13, a14, a15, a16, a17, a18, a19, a20, a21⟩,
    ⟨b1, b2, b3, b4, b5, b6, b7, b8, b9, b10, b11, b12, b13, b14, b15, b16, b17, b18, b19, b20, b21⟩,
    d1, d2, d3, d4, d5, d6, d7, d8⟩, m1, m2, m3, m4, m5⟩, m6, m7⟩ := hi
  exact ⟨⟨⟨⟨a1, a2, a3, a4, a5, a6, a7, a8, a9, a10, a11, a12, a13, a14, a15, a16, a17, a18, a19, a20, a21⟩,
    ⟨b1, b2, b3, b4, b5, b6, b7, b8, b9, b10, b11, b12, b13, b14, b15, b16, b17, b18, b19, b20, b21⟩,
    d1, d2, d3, by grind, d5, d6, d7, d8⟩, m1, m2, m3, m4, m5⟩, m6, m7⟩

theorem timeout_mid (s : S) (hi : Inv s) (ht : s.timer = true) :
    ∃ c, s.closing = some c ∧ Mid { s with timer := false } c := by
  have hc := hi.tm ht
  obtain ⟨c, hcl⟩ := Option.ne_none_iff_exists'.mp hc
  · refine ⟨c, hcl, ?_⟩
    have hcore : Core { s with timer := false } := ⟨hi.core.io, hi.core.er, hi.core.noIn, hi.core.ids, hi.core.ids2,
      hi.core.pid, hi.core.outs, hi.core.ins, hi.core.errs, hi.core.cl⟩
    obtain ⟨⟨⟨⟨a1, a2, a3, a4, a5, a6, a7, a8, a9, a10, a11, a12, a13, a14, a15, a16, a17, a18, a19, a20, a21⟩,
      ⟨b1, b2, b3, b4, b5, b6, b7, b8, b9, b10, b11, b12, b13, b14, b15, b16, b17, b18, b19, b20, b21⟩,
      d1, d2, d3, d4, d5, d6, d7, d8⟩, m1, m2, m3, m4, m5⟩, m6, m7⟩ := hi
    simp only [S.held, ht, n_true] at m6
    have e8 := d8 hc
    cases c
    · refine ⟨hcore, ?_, ?_, ?_, rfl, ?_, ?_, .inr hcl, ?_, ?_, ?_⟩
      · simp only [S.ch]; clear m6; grind
      · simp only [S.ch]; clear m6; grind
      · simp only [S.ch]; clear m6; grind
      · simp only [S.ch]; clear m6; grind
      · simp only [S.ch]; clear m6; grind
      · intro d hd; clear m6; cases d
        · simp at hd
        · simp only [S.goes, S.ch] at *; grind
      · simp [S.held]; omega
      · simp only [m7, beq_eq_false_iff_ne]; omega
    · refine ⟨hcore, ?_, ?_, ?_, rfl, ?_, ?_, .inr hcl, ?_, ?_, ?_⟩
      · simp only [S.ch]; clear m6; grind
      · simp only [S.ch]; clear m6; grind
      · simp only [S.ch]; clear m6; grind
      · simp only [S.ch]; clear m6; grind
      · simp only [S.ch]; clear m6; grind
      · intro d hd; clear m6; cases d
        · simp only [S.goes, S.ch] at *; grind
        · simp at hd
      · simp [S.held]; omega
      · simp only [m7, beq_eq_false_iff_ne]; omega

end Gensio.StdioLife
