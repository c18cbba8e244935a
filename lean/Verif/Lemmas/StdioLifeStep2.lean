import Verif.Lemmas.StdioLifeStep

/-!
# The steps in the life of the stdio gensio, continued
-/

set_option maxHeartbeats 1000000

namespace Gensio.StdioLife

theorem iClose_true (s : S) (c : C) (d : Bool) (h : (s.ch c).opPend = true) :
    s.iClose c d = s.set c { s.ch c with closed := true, inClose := true, cdone := d, defClose := true } := by
  cases c <;> simp only [S.ch] at h <;> simp [S.iClose, S.startOp, S.set, S.ch, h]

theorem iClose_false (s : S) (c : C) (d : Bool) (h : (s.ch c).opPend = false) :
    s.iClose c d = { s.set c { s.ch c with closed := true, inClose := true, cdone := d, defClose := true, opPend := true } with ref := s.ref + 1 } := by
  cases c <;> simp only [S.ch] at h <;> simp [S.iClose, S.startOp, S.set, S.ch, h]

theorem closeCall_inv (s : S) (c : C) (hi : Inv s) (hc : Careful s (.close c true)) : Inv (s.closeCall c true).1 := by
  simp only [S.closeCall]
  split
  · exact hi
  rename_i hh
  obtain ⟨⟨⟨⟨a1, a2, a3, a4, a5, a6, a7, a8, a9, a10, a11, a12, a13, a14, a15, a16, a17, a18, a19, a20, a21⟩,
    ⟨b1, b2, b3, b4, b5, b6, b7, b8, b9, b10, b11, b12, b13, b14, b15, b16, b17, b18, b19, b20, b21⟩,
    d1, d2, d3, d4, d5, d6, d7, d8⟩, m1, m2, m3, m4, m5⟩, m6, m7⟩ := hi
  simp only [Careful, Bool.or_eq_true, not_or, Bool.not_eq_true] at hc hh
  cases hp : (s.ch c).opPend
  · rw [iClose_false _ _ _ hp]
    cases c
    · simp only [S.set, S.ch, S.goes] at *
      refine ⟨?_, ?_, ?_⟩
      · clear m6 m7
        shape_split <;> grind [S.ch, S.goes]
      · simp only [S.held] at m6 ⊢; clear m7; grind [n]
      · have hr : s.ref ≠ 0 := by simp only [m6, S.held, hc.1, n_true]; omega
        simp [m7, hr]
    · simp only [S.set, S.ch, S.goes] at *
      refine ⟨?_, ?_, ?_⟩
      · clear m6 m7
        shape_split <;> grind [S.ch, S.goes]
      · simp only [S.held] at m6 ⊢; clear m7; grind [n]
      · have hr : s.ref ≠ 0 := by simp only [m6, S.held, hc.1, n_true]; omega
        simp [m7, hr]
  · rw [iClose_true _ _ _ hp]
    cases c
    · simp only [S.set, S.ch, S.goes] at *
      refine ⟨?_, ?_, ?_⟩
      · clear m6 m7
        shape_split <;> grind [S.ch, S.goes]
      · simp only [S.held] at m6 ⊢; clear m7; grind [n]
      · clear m6; grind
    · simp only [S.set, S.ch, S.goes] at *
      refine ⟨?_, ?_, ?_⟩
      · clear m6 m7
        shape_split <;> grind [S.ch, S.goes]
      · simp only [S.held] at m6 ⊢; clear m7; grind [n]
      · clear m6; grind

theorem freeCall_inv (s : S) (c : C) (hi : Inv s) (hc : Careful s (.free c)) : Inv (s.freeCall c) := by
  obtain ⟨⟨⟨⟨a1, a2, a3, a4, a5, a6, a7, a8, a9, a10, a11, a12, a13, a14, a15, a16, a17, a18, a19, a20, a21⟩,
    ⟨b1, b2, b3, b4, b5, b6, b7, b8, b9, b10, b11, b12, b13, b14, b15, b16, b17, b18, b19, b20, b21⟩,
    d1, d2, d3, d4, d5, d6, d7, d8⟩, m1, m2, m3, m4, m5⟩, m6, m7⟩ := hi
  simp only [Careful] at hc
  simp only [S.freeCall]
  split
  · rename_i hh
    cases c
    · simp only [S.set, S.ch, S.goes] at *
      refine ⟨?_, ?_, ?_⟩
      · clear m6 m7
        shape_split <;> grind [S.ch, S.goes]
      · simp only [S.held] at m6 ⊢; clear m7; grind [n]
      · clear m6; grind
    · simp only [S.set, S.ch, S.goes] at *
      refine ⟨?_, ?_, ?_⟩
      · clear m6 m7
        shape_split <;> grind [S.ch, S.goes]
      · simp only [S.held] at m6 ⊢; clear m7; grind [n]
      · clear m6; grind
  split
  · rename_i hh
    cases c
    · simp only [S.set, S.ch, S.goes] at *
      refine ⟨?_, ?_, ?_⟩
      · clear m6 m7
        shape_split <;> grind [S.ch, S.goes]
      · simp only [S.held] at m6 ⊢; clear m7; grind [n]
      · clear m6; grind
    · simp only [S.set, S.ch, S.goes] at *
      refine ⟨?_, ?_, ?_⟩
      · clear m6 m7
        shape_split <;> grind [S.ch, S.goes]
      · simp only [S.held] at m6 ⊢; clear m7; grind [n]
      · clear m6; grind
  rename_i hh hh2
  cases hp : (S.ch (s.set c { s.ch c with inFree := true }) c).opPend
  · rw [iClose_false _ _ _ hp]
    cases c
    · simp only [S.set, S.ch, S.goes] at *
      refine ⟨?_, ?_, ?_⟩
      · clear m6 m7
        shape_split <;> grind [S.ch, S.goes]
      · simp only [S.held] at m6 ⊢; clear m7; grind [n]
      · have hr : s.ref ≠ 0 := by simp only [m6, S.held, hc.1, n_true]; omega
        simp [m7, hr]
    · simp only [S.set, S.ch, S.goes] at *
      refine ⟨?_, ?_, ?_⟩
      · clear m6 m7
        shape_split <;> grind [S.ch, S.goes]
      · simp only [S.held] at m6 ⊢; clear m7; grind [n]
      · have hr : s.ref ≠ 0 := by simp only [m6, S.held, hc.1, n_true]; omega
        simp [m7, hr]
  · rw [iClose_true _ _ _ hp]
    cases c
    · simp only [S.set, S.ch, S.goes] at *
      refine ⟨?_, ?_, ?_⟩
      · clear m6 m7
        shape_split <;> grind [S.ch, S.goes]
      · simp only [S.held] at m6 ⊢; clear m7; grind [n]
      · clear m6; grind
    · simp only [S.set, S.ch, S.goes] at *
      refine ⟨?_, ?_, ?_⟩
      · clear m6 m7
        shape_split <;> grind [S.ch, S.goes]
      · simp only [S.held] at m6 ⊢; clear m7; grind [n]
      · clear m6; grind

end Gensio.StdioLife
