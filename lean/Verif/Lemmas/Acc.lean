import Verif.Model.Acc

/-!
# Invariants of accepters
-/
namespace Gensio.Acc

/-- 1 or 0. -/
def b2n (b : Bool) : Nat := if b then 1 else 0

/-- The reference for the shutdown of the lower half. -/
def Low.n : Low → Nat
  | .closing => 1
  | _ => 0

/-- The counts, in all runs. -/
structure Cnt (s : A) : Prop where
  ref : s.ref = b2n (!s.freed) + s.low.n + s.opening + s.inConn + s.lowEn + s.inEn + s.inShut
  cb : s.inCb = s.opening + 2 * s.inConn + s.lowEn + s.inEn
  gone : s.gone = true ↔ s.ref = 0
  en1 : s.lowEn ≤ 1
  en2 : s.lowEn ≠ 0 → s.enDone.isSome
  lo : s.st = .opened → s.low = .opened ∧ s.freed = false
  ls : s.st = .inShutdown → s.low = .closing ∨ (s.low = .closed ∧ s.callShut = true ∧ s.inCb ≠ 0)

theorem Cnt.init : Cnt init := by
  constructor <;> simp [Acc.init, b2n, Low.n]

/-- A state that is reached, or a fault. -/
def GoodC : Option A → Prop
  | some s => Cnt s
  | none => True

theorem goodC_some {s : A} : GoodC (some s) = Cnt s := rfl
theorem goodC_none : GoodC none = True := rfl
theorem goodC_ite {p : Prop} [Decidable p] {a b : Option A} : GoodC (if p then a else b) = if p then GoodC a else GoodC b := by
  split <;> rfl

theorem goodC_deref {leaf : Bool} {s : A} (h : Cnt { s with ref := s.ref - 1, gone := decide (s.ref = 1) }) (hg : s.gone = false) : GoodC (deref leaf s) := by
  unfold deref
  split
  · trivial
  · split
    · split
      · trivial
      · rename_i h1 _
        rw [goodC_some]
        simpa [h1] using h
    · rename_i h1
      rw [goodC_some]
      simpa [h1, hg] using h

theorem goodC_finish {s : A} (h : Cnt { s with st := .closed, shutDone := none, inShut := s.inShut + 1 }) : GoodC (some (finishShut s)) := by
  rw [goodC_some]
  unfold finishShut
  obtain ⟨h1, h2, h3, h4, h5, h6, h7⟩ := h
  split <;> constructor <;> first | assumption | (intro hh; cases hh)

theorem goodC_leave {leaf : Bool} {s : A} (hg : s.gone = false) (h0 : s.ref ≠ 0)
    (hr : s.ref = 1 + b2n (!s.freed) + s.low.n + s.opening + s.inConn + s.lowEn + s.inEn + s.inShut)
    (hb : s.inCb = 1 + s.opening + 2 * s.inConn + s.lowEn + s.inEn) (h4 : s.lowEn ≤ 1) (h5 : s.lowEn ≠ 0 → s.enDone.isSome)
    (h6 : s.st = .opened → s.low = .opened ∧ s.freed = false) (h7 : s.st = .inShutdown → s.low = .closing ∨ (s.low = .closed ∧ s.callShut = true)) :
    GoodC (leaveCb leaf s) := by
  unfold leaveCb
  rw [if_neg (by omega)]
  dsimp only
  split
  · refine goodC_finish ?_
    constructor <;> dsimp only
    · omega
    · omega
    · simp only [hg, Bool.false_eq_true, false_iff]; exact h0
    · exact h4
    · exact h5
    · intro hh; cases hh
    · intro hh; cases hh
  · rename_i hn
    refine goodC_deref ?_ hg
    constructor <;> dsimp only
    · omega
    · omega
    · simp only [decide_eq_true_eq]; omega
    · exact h4
    · exact h5
    · exact h6
    · intro hh
      rcases h7 hh with a | ⟨a, b⟩
      · exact .inl a
      · exact .inr ⟨a, b, fun h0 => hn ⟨h0, b⟩⟩

theorem Cnt.step {leaf : Bool} {s s' : A} {op : Op} (hi : Cnt s) (hc : can leaf s op = true) (h : step leaf s op = some s') : Cnt s' := by
  suffices hs : GoodC (Acc.step leaf s op) by rw [h] at hs; exact hs
  clear h
  unfold Acc.step
  by_cases hg : s.gone = true
  · rw [if_pos hg]; trivial
  rw [if_neg hg]
  replace hg : s.gone = false := by simpa using hg
  obtain ⟨h1, h2, h3, h4, h5, h6, h7⟩ := hi
  have h3' : s.ref ≠ 0 := by rw [hg] at h3; simpa using h3
  cases op with
  | startup lerr =>
    simp only [goodC_ite, goodC_some, goodC_none, A.say]
    repeat' split
    · trivial
    · constructor <;> assumption
    · constructor <;> assumption
    · rename_i a b c
      have c1 : s.low = .closed := by simpa using (not_or.mp c).2
      constructor <;> dsimp only
      · rw [h1, c1]; rfl
      · exact h2
      · exact h3
      · exact h4
      · exact h5
      · intro _; exact ⟨rfl, by simpa using a⟩
      · intro hh; cases hh
  | shutdown id lerr =>
    simp only [Acc.shutdown, goodC_ite, goodC_some, goodC_none, A.say, Acc.ref, if_neg h3', Option.map_some]
    repeat' split
    · rename_i a b
      obtain ⟨_, b⟩ : lerr = 0 ∧ s.low = .opened := by simpa [lowShutdown] using b
      constructor <;> dsimp only
      · have e1 : s.low.n = 0 := by rw [b]; rfl
        have e2 : Low.closing.n = 1 := rfl
        omega
      · exact h2
      · simp [hg]
      · exact h4
      · exact h5
      · intro hh; cases hh
      · intro _; exact .inl rfl
    · constructor <;> assumption
    · constructor <;> assumption
  | lowShut =>
    have hl : s.low = .closing := by simpa [can] using hc
    have hd : s.low.n = 1 := by rw [hl]; rfl
    have hd0 : Low.closed.n = 0 := rfl
    dsimp only
    split
    · rename_i h0
      refine goodC_deref ?_ hg
      constructor <;> dsimp only
      · omega
      · exact h2
      · simp only [decide_eq_true_eq]; omega
      · exact h4
      · exact h5
      · intro hh; have := (h6 hh).1; rw [hl] at this; cases this
      · intro _; exact .inr ⟨rfl, rfl, h0⟩
    · refine goodC_finish ?_
      constructor <;> dsimp only
      · omega
      · exact h2
      · exact h3
      · exact h4
      · exact h5
      · intro hh; cases hh
      · intro hh; cases hh
  | shutCont =>
    have hl : s.inShut ≠ 0 := by simpa [can] using hc
    refine goodC_deref ?_ hg
    constructor <;> dsimp only
    · omega
    · exact h2
    · simp only [decide_eq_true_eq]; omega
    · exact h4
    · exact h5
    · exact h6
    · exact h7
  | enable done lerr =>
    simp only [Acc.enable]
    generalize (if leaf = true then s.gen else done.isSome) = g
    simp only [goodC_ite, goodC_some, goodC_none, A.say, enterCb, Acc.ref, if_neg h3', Option.map_some]
    cases done with
    | none =>
      simp only [Option.isSome_none, Bool.false_eq_true, false_and, or_false, if_false]
      repeat' split
      all_goals constructor <;> assumption
    | some id =>
      simp only [Option.isSome_some, true_and, if_true]
      repeat' split
      · constructor <;> assumption
      · constructor <;> dsimp only <;> first | assumption | (intro _; rfl)
      · rename_i a b
        have a2 : ¬ s.enDone.isSome = true := (not_or.mp a).2
        have l0 : s.lowEn = 0 := by
          cases hh : s.lowEn with
          | zero => rfl
          | succ n => exact absurd (h5 (by omega)) a2
        constructor <;> dsimp only
        · omega
        · omega
        · simp [hg]
        · omega
        · intro _; rfl
        · exact h6
        · intro hh
          rcases h7 hh with x | ⟨x, y, z⟩
          · exact .inl x
          · exact .inr ⟨x, y, by omega⟩
  | lowEn =>
    have hl : s.lowEn ≠ 0 := by simpa [can] using hc
    dsimp only
    split
    · trivial
    · split
      · trivial
      · rw [goodC_some]
        constructor <;> simp only [A.say]
        · omega
        · omega
        · exact h3
        · omega
        · intro hh; omega
        · exact h6
        · exact h7
  | enCont =>
    have hl : s.inEn ≠ 0 := by simpa [can] using hc
    refine goodC_leave hg h3' (by dsimp only; omega) (by dsimp only; omega) h4 h5 h6 fun hh => ?_
    rcases h7 hh with x | ⟨x, y, z⟩
    · exact .inl x
    · exact .inr ⟨x, y⟩
  | newChild err =>
    simp only [goodC_ite, goodC_some, goodC_none, A.say, enterCb, Acc.ref, if_neg h3', Option.map_some]
    split
    · constructor <;> assumption
    · constructor <;> dsimp only
      · omega
      · omega
      · simp [hg]
      · exact h4
      · exact h5
      · exact h6
      · intro hh
        rcases h7 hh with x | ⟨x, y, z⟩
        · exact .inl x
        · exact .inr ⟨x, y, by omega⟩
  | openDone err =>
    have hl : s.opening ≠ 0 := by simpa [can] using hc
    have lv : GoodC (leaveCb leaf { s with opening := s.opening - 1 }) := by
      refine goodC_leave hg h3' (by dsimp only; omega) (by dsimp only; omega) h4 h5 h6 fun hh => ?_
      rcases h7 hh with x | ⟨x, y, z⟩
      · exact .inl x
      · exact .inr ⟨x, y⟩
    dsimp only
    split
    · exact lv
    · split
      · rw [goodC_some]
        constructor <;> simp only [A.say]
        · omega
        · omega
        · exact h3
        · exact h4
        · exact h5
        · exact h6
        · intro hh
          rcases h7 hh with x | ⟨x, y, z⟩
          · exact .inl x
          · exact .inr ⟨x, y, by omega⟩
      · exact lv
  | connCont =>
    have hl : s.inConn ≠ 0 := by simpa [can] using hc
    dsimp only
    split
    · trivial
    · refine goodC_leave hg h3' (by dsimp only; omega) (by dsimp only; omega) h4 h5 h6 fun hh => ?_
      rcases h7 hh with x | ⟨x, y, z⟩
      · exact .inl x
      · exact .inr ⟨x, y⟩
  | free lerr =>
    have hf : s.freed = false := by simp [can] at hc; exact hc.1
    have hb : b2n (!s.freed) = 1 := by rw [hf]; rfl
    simp only [Acc.free, hf, Bool.false_eq_true, if_false, A.say]
    split
    · rename_i hst
      refine goodC_deref ?_ hg
      constructor <;> dsimp only
      · have : b2n (!true) = 0 := rfl
        omega
      · exact h2
      · simp only [decide_eq_true_eq]; omega
      · exact h4
      · exact h5
      · intro hh; rw [hst] at hh; cases hh
      · exact h7
    · rename_i hst
      refine goodC_deref ?_ hg
      constructor <;> dsimp only
      · have : b2n (!true) = 0 := rfl
        omega
      · exact h2
      · simp only [decide_eq_true_eq]; omega
      · exact h4
      · exact h5
      · intro hh; rw [hst] at hh; cases hh
      · exact h7
    · rename_i hst
      have hlo := (h6 hst).1
      simp only [Acc.ref, if_neg h3', Option.bind_some]
      split
      · refine goodC_deref ?_ hg
        constructor <;> dsimp only
        · have : b2n (!true) = 0 := rfl
          have e1 : s.low.n = 0 := by rw [hlo]; rfl
          have e2 : Low.closing.n = 1 := rfl
          omega
        · exact h2
        · simp only [decide_eq_true_eq]; omega
        · exact h4
        · exact h5
        · intro hh; cases hh
        · intro _; exact .inl rfl
      · refine goodC_deref ?_ hg
        constructor <;> dsimp only
        · have : b2n (!true) = 0 := rfl
          omega
        · exact h2
        · simp only [decide_eq_true_eq]; omega
        · exact h4
        · exact h5
        · intro hh; cases hh
        · intro hh; cases hh

end Gensio.Acc
