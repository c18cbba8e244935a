import Verif.Lemmas.StdioLifeStep2

/-!
# The steps in the life of the stdio gensio: opening and the end of handlers
-/

set_option maxHeartbeats 1000000

namespace Gensio.StdioLife

theorem startOp_false (s : S) (c : C) (h : (s.ch c).opPend = false) :
    s.startOp c = { s.set c { s.ch c with opPend := true } with ref := s.ref + 1 } := by
  simp [S.startOp, h]

theorem openCall_io (s : S) (e : Nat) (hi : Inv s) (hc : Careful s (.open .io e)) :
    s.openCall .io e ≠ none ∧ ∀ s' os, s.openCall .io e = some (s', os) → Inv s' := by
  obtain ⟨⟨⟨⟨a1, a2, a3, a4, a5, a6, a7, a8, a9, a10, a11, a12, a13, a14, a15, a16, a17, a18, a19, a20, a21⟩,
    ⟨b1, b2, b3, b4, b5, b6, b7, b8, b9, b10, b11, b12, b13, b14, b15, b16, b17, b18, b19, b20, b21⟩,
    d1, d2, d3, d4, d5, d6, d7, d8⟩, m1, m2, m3, m4, m5⟩, m6, m7⟩ := hi
  obtain ⟨c1, c2, c3⟩ := hc
  obtain ⟨e1, e2, e3, e4, e5, e6, e7, e8, e9, e10, e11, e12⟩ := d4 c3
  obtain ⟨g1, g2, g3⟩ := a10 e6 e7
  obtain ⟨k1, k2, k3⟩ := b10 e9 e10
  have g4 : s.io.inH = false := by rw [a1, g1]; rfl
  have g5 : s.io.outH = false := by rw [a2, g2]; rfl
  have hr : s.ref ≠ 0 := by simp only [m6, S.held, c1, n_true]; omega
  have ht : s.timer = false := by
    cases h : s.timer with
    | false => rfl
    | true => exact absurd e5 (m1 h)
  by_cases he : e = 0
  · subst he
    simp [S.openCall, S.ch, e6, e7, S.openHandlers, S.startOp, S.set, g3]
    simp only [S.ch, S.goes] at *
    refine ⟨?_, ?_, ?_⟩
    · clear m6 m7
      shape_split <;> grind [S.ch, S.goes]
    · simp [S.held, e1, e2, e3, g1, g2, g3, k1, k2, k3] at m6 ⊢; omega
    · simp [m7, hr]
  · simp [S.openCall, S.ch, e6, e7, he, g4, g5, e1, e2, e3, S.closeIod]
    simp only [S.ch, S.goes] at *
    refine ⟨?_, ?_, ?_⟩
    · clear m6 m7
      shape_split <;> grind [S.ch, S.goes]
    · simp [S.held, e1, e2, e3, g1, g2, g3, k1, k2, k3] at m6 ⊢; omega
    · exact m7

theorem openCall_err (s : S) (e : Nat) (hi : Inv s) (hc : Careful s (.open .err e)) :
    s.openCall .err e ≠ none ∧ ∀ s' os, s.openCall .err e = some (s', os) → Inv s' := by
  have hi0 := hi
  obtain ⟨⟨⟨⟨a1, a2, a3, a4, a5, a6, a7, a8, a9, a10, a11, a12, a13, a14, a15, a16, a17, a18, a19, a20, a21⟩,
    ⟨b1, b2, b3, b4, b5, b6, b7, b8, b9, b10, b11, b12, b13, b14, b15, b16, b17, b18, b19, b20, b21⟩,
    d1, d2, d3, d4, d5, d6, d7, d8⟩, m1, m2, m3, m4, m5⟩, m6, m7⟩ := hi
  obtain ⟨c1, c2, c3, c4⟩ := hc
  subst c4
  have hr : s.ref ≠ 0 := by simp only [m6, S.held, c1, n_true]; omega
  by_cases hq : s.err.closed = true ∧ s.err.inClose = false
  · obtain ⟨e9, e10⟩ := hq
    obtain ⟨k1, k2, k3⟩ := b10 e9 e10
    obtain ⟨i, hii⟩ := Option.ne_none_iff_exists'.mp c3
    have hcl : s.closing = none := by
      cases h : s.closing with
      | none => rfl
      | some _ => exact absurd (d8 (by simp [h])).2.2.1 c3
    have ht : s.timer = false := by
      cases h : s.timer with
      | false => rfl
      | true => exact absurd hcl (m1 h)
    simp [S.openCall, S.ch, e9, e10, S.openHandlers, S.startOp, S.set, k3, hii, d1.1]
    simp only [S.ch, S.goes] at *
    refine ⟨?_, ?_, ?_⟩
    · clear m6 m7
      shape_split <;> grind [S.ch, S.goes]
    · simp [S.held, k1, k2, k3] at m6 ⊢; omega
    · simp [m7, hr]
  · have : (!s.err.closed || s.err.inClose) = true := by
      cases h1 : s.err.closed <;> cases h2 : s.err.inClose <;> simp_all
    simp only [S.openCall, S.ch, this, if_true]
    refine ⟨by simp, ?_⟩
    intro s' os h
    simp only [Option.some.injEq, Prod.mk.injEq] at h
    obtain ⟨h, -⟩ := h
    subst h
    exact hi0


end Gensio.StdioLife
