import Verif.Lemmas.Certauth

/-!
# What the decisions of the authentication filter are based on
-/
namespace Gensio.Certauth

/-- The parser between calls: after both bytes of the length there is a length and the element is not complete. -/
def PS (f : F) : Prop :=
  (f.b2 = true → f.b1 = true ∧ 0 < f.currLen ∧ f.currLen ≤ dataSize ∧ f.readBuf.length < f.currLen) ∧ (f.b2 = false → f.readBuf = [])

/-- The element is complete. -/
def Full (f : F) : Prop := f.readBuf.length = f.currLen ∧ 0 < f.currLen ∧ f.currLen ≤ dataSize

theorem PS_elemDone (C : Crypto) (f : F) : PS (elemDone C f) := ⟨by simp [elemDone], by simp [elemDone]⟩

/-- What holds of the part that decides, and is kept by elements, holds after data came in. -/
theorem parse_ind {C : Crypto} {P : F → Prop} (hi : ∀ f g, core g = core f → P f → P g) (he : ∀ f, Full f → P f → P (elemDone C f)) :
    ∀ (n : Nat) (f : F) (buf : List UInt8) (g : F) (r : List UInt8), parseElems C n f buf = some (g, r) → PS f → P f →
      P g ∧ (g.pendingErr = 0 → PS g)
  | 0, _, _, _, _, h, _, _ => by simp [parseElems] at h
  | n + 1, f, buf, g, r, h, ps, p => by
    unfold parseElems at h
    split at h
    · cases h
    · rename_i f1 b1 hx
      simp only [Option.some.injEq, Prod.mk.injEq] at h
      obtain ⟨rfl, rfl⟩ := h
      split at hx
      · split at hx
        · cases hx
        · split at hx
          · simp only [Option.some.injEq, Prod.mk.injEq, true_and] at hx; rw [← hx.1]; exact ⟨hi f _ rfl p, fun _ => ps⟩
          · split at hx
            · simp only [Option.some.injEq, Prod.mk.injEq, true_and] at hx; rw [← hx.1]; exact ⟨hi f _ rfl p, fun _ => ps⟩
            · simp at hx
      · simp at hx
    · rename_i f1 b1 hx
      have p1 : P f1 ∧ PS f1 := by
        split at hx
        · split at hx
          · cases hx
          · split at hx
            · simp at hx
            · split at hx
              · simp at hx
              · simp only [Option.some.injEq, Prod.mk.injEq, true_and] at hx; rw [← hx.1]; exact ⟨hi f _ rfl p, ps⟩
        · simp only [Option.some.injEq, Prod.mk.injEq, true_and] at hx; rw [← hx.1]; exact ⟨p, ps⟩
      clear hx p ps
      split at h
      · simp only [Option.some.injEq, Prod.mk.injEq] at h
        rw [← h.1]; exact ⟨p1.1, fun _ => p1.2⟩
      · rename_i c buf'
        dsimp only at h
        generalize hx : (if f1.b1 = true then (f1, c :: buf') else ({ f1 with b1 := true, currLen := c.toNat * 256 }, buf')) = x at h
        have px : P x.1 ∧ PS x.1 := by
          rw [← hx]
          split
          · exact p1
          · rename_i hb
            exact ⟨hi f1 _ rfl p1.1, fun h2 => absurd (p1.2.1 h2).1 hb, p1.2.2⟩
        split at h
        · simp only [Option.some.injEq, Prod.mk.injEq] at h
          rw [← h.1]; exact ⟨px.1, fun _ => px.2⟩
        · rename_i c2 buf2 _
          generalize hy : (if x.1.b2 = true then (x.1, x.2) else ({ x.1 with b2 := true, currLen := x.1.currLen + c2.toNat }, buf2)) = y at h
          have hxb : x.1.b1 = true := by
            rw [← hx]; split
            · assumption
            · rfl
          have py : P y.1 ∧ y.1.b1 = true ∧ y.1.b2 = true ∧
              ((!x.1.b2 && (y.1.currLen = 0 || y.1.currLen > dataSize)) = false → 0 < y.1.currLen ∧ y.1.currLen ≤ dataSize ∧
                y.1.readBuf.length < y.1.currLen) := by
            rw [← hy]
            split
            · rename_i hb
              exact ⟨px.1, hxb, hb, fun _ => (px.2.1 hb).2⟩
            · rename_i hb
              have hb : x.1.b2 = false := by simpa using hb
              refine ⟨hi x.1 _ rfl px.1, hxb, rfl, fun h => ?_⟩
              simp [hb] at h
              have := px.2.2 hb
              dsimp only
              rw [this]
              simp only [List.length_nil]
              omega
          split at h
          · simp only [Option.some.injEq, Prod.mk.injEq] at h
            rw [← h.1]; exact ⟨hi y.1 _ rfl py.1, fun e => by simp [geProtoerr] at e⟩
          · rename_i hc
            obtain ⟨c1, c2, c3⟩ := py.2.2.2 (by simpa using hc)
            split at h
            · rename_i hl
              split at h
              · cases h
              · refine parse_ind hi he n _ _ _ _ h (PS_elemDone _ _) (he _ ⟨?_, c1, c2⟩ (hi y.1 _ rfl py.1))
                simp only [List.length_append, List.length_take]; omega
            · rename_i hl
              split at h
              · cases h
              · simp only [Option.some.injEq, Prod.mk.injEq] at h
                rw [← h.1]
                refine ⟨hi y.1 _ rfl py.1, fun _ => ⟨fun _ => ⟨py.2.1, c1, c2, ?_⟩, fun e => ?_⟩⟩
                · simp only [List.length_append]; omega
                · rw [show y.1.b2 = true from py.2.2.1] at e; cases e

/-- The same for `certauth_ll_write`. -/
theorem recv_ind {C : Crypto} {P : F → Prop} (hi : ∀ f g, core g = core f → P f → P g) (he : ∀ f, Full f → P f → P (elemDone C f))
    (hs : ∀ f g, f.isClient = true → f.state ≠ stPass → core g = { core f with state := stServerDone } → P f → P g)
    (f : F) (buf : List UInt8) (x : F × List UInt8 × Nat) (h : llWrite C f buf = some x) (ps : f.pendingErr = 0 → PS f)
    (p : P f) : P x.1 ∧ (x.1.pendingErr = 0 → PS x.1) := by
  unfold llWrite at h
  split at h
  · simp only [Option.some.injEq] at h; subst h; exact ⟨p, ps⟩
  · rename_i c buf'
    split at h
    · simp only [Option.some.injEq] at h; subst h; exact ⟨p, ps⟩
    · rename_i hst
      split at h
      · simp only [Option.some.injEq] at h; subst h; exact ⟨p, ps⟩
      · rename_i hpe
        have ps := ps (by simpa using hpe)
        dsimp only at h
        generalize hy : (if f.currMsg = 0 then _ else (false, f, c :: buf') : Bool × F × List UInt8) = y at h
        have py : P y.2.1 ∧ PS y.2.1 := by
          rw [← hy]
          split
          · split
            · exact ⟨hi f _ rfl p, ps⟩
            · split
              · rename_i hc
                simp only [Bool.and_eq_true] at hc
                exact ⟨hs f _ hc.1 hst rfl p, ⟨fun e => by (cases (show false = true from e)), fun _ => rfl⟩⟩
              · split
                · exact ⟨hi f _ rfl p, ⟨fun e => by (cases (show false = true from e)), fun _ => rfl⟩⟩
                · exact ⟨hi f _ rfl p, ⟨fun e => by (cases (show false = true from e)), fun _ => rfl⟩⟩
          · exact ⟨p, ps⟩
        split at h
        · simp only [Option.some.injEq] at h; subst h; exact ⟨py.1, fun _ => py.2⟩
        · obtain ⟨z, hz, e⟩ := Option.map_eq_some_iff.1 h
          subst e
          exact parse_ind hi he _ _ _ _ _ hz py.2 py.1

theorem send_core {f : F} {n : Nat} {x : F × List UInt8} (h : ulWrite f n = some x) : core x.1 = core f := by
  unfold ulWrite at h
  split at h
  · simp only [Option.some.injEq] at h; subst h; rfl
  · split at h
    · cases h
    · dsimp only at h
      split at h <;> (simp only [Option.some.injEq] at h; subst h; rfl)

end Gensio.Certauth
