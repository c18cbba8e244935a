import Verif.Lemmas.SelectorThread

/-!
# Lemmas about the selector: the threads that wait
-/

namespace Gensio.Sel

open Gensio.Heap (Heap upd Inv)

/-- The same threads, runners and waiting threads. -/
def Same (s s' : Sel) : Prop := s'.loc = s.loc ∧ s'.queue = s.queue ∧ s'.waits = s.waits

theorem Same.refl (s : Sel) : Same s s := ⟨rfl, rfl, rfl⟩

theorem Same.trans {a b c : Sel} (x : Same a b) (y : Same b c) : Same a c :=
  ⟨y.1.trans x.1, y.2.1.trans x.2.1, y.2.2.trans x.2.2⟩

theorem same_setTv (s : Sel) (t : Nat) (v : Tv) : Same s (s.setTv t v) := ⟨rfl, rfl, rfl⟩

theorem same_add {s s' : Sel} {t : Nat} (h : s.heapAdd t = some s') : Same s s' := by
  unfold Sel.heapAdd at h
  split at h
  · cases h
  · rw [← Option.some.inj h]; exact ⟨rfl, rfl, rfl⟩

theorem same_remove {s s' : Sel} {t : Nat} (h : s.heapRemove t = some s') : Same s s' := by
  unfold Sel.heapRemove at h
  split at h
  · cases h
  · rw [← Option.some.inj h]; exact ⟨rfl, rfl, rfl⟩

theorem same_stopI {s s' : Sel} {t n : Nat} (h : s.stopI t = some (s', n)) : Same s s' := by
  unfold Sel.stopI at h
  simp only at h
  split at h
  · cases h
  · rename_i s1 e
    simp only [Option.some.injEq, Prod.mk.injEq] at h
    rw [← h.1]
    refine .trans ?_ (same_setTv ..)
    split at e
    · exact same_remove e
    · rw [← Option.some.inj e]; exact .refl _

theorem same_free {s s' : Sel} {t : Nat} (h : s.freeTimer t = some s') : Same s s' := by
  unfold Sel.freeTimer at h
  simp only at h
  split at h
  · cases h
  · rename_i s1 e
    have h1 : Same s s1 := by
      split at e
      · rw [Option.map_eq_some_iff] at e
        obtain ⟨x, hx, rfl⟩ := e
        exact same_stopI (n := x.2) hx
      · rw [← Option.some.inj e]; exact .refl _
    refine h1.trans ?_
    split at h <;> rw [← Option.some.inj h] <;> exact ⟨rfl, rfl, rfl⟩

theorem same_stopDone {s s' : Sel} {t n : Nat} (h : s.stopTimerDone t = some (s', n)) : Same s s' := by
  unfold Sel.stopTimerDone at h
  split at h
  · simp only [Option.some.injEq, Prod.mk.injEq] at h; rw [← h.1]; exact .refl _
  · split at h
    · simp only [Option.some.injEq, Prod.mk.injEq] at h; rw [← h.1]; exact .refl _
    · simp only at h
      split at h
      · cases h
      · rename_i s1 e
        split at h
        · cases h
        · rename_i s2 e2
          simp only [Option.some.injEq, Prod.mk.injEq] at h
          rw [← h.1]
          have h1 := (same_setTv s1 t _).trans (same_add e2)
          refine .trans ?_ h1
          split at e
          · exact .trans (same_setTv s t _) (same_remove e)
          · rw [← Option.some.inj e]; exact same_setTv ..

theorem start_frame {s s' : Sel} {t n : Nat} {time : Time} (h : s.startTimer t time = some (s', n)) :
    s'.loc = s.loc ∧ s'.queue = s.queue ∧ ((s'.heap.top ≠ s.heap.top ∧ s'.waits = wakeBefore s.waits time)
      ∨ (s'.heap.top = s.heap.top ∧ s'.waits = s.waits)) := by
  unfold Sel.startTimer at h
  split at h
  · simp only [Option.some.injEq, Prod.mk.injEq] at h
    rw [← h.1]; exact ⟨rfl, rfl, Or.inr ⟨rfl, rfl⟩⟩
  · simp only at h
    split at h
    · cases h
    · rename_i s1 e
      have h1 : Same s s1 := by
        split at e
        · rw [← Option.some.inj e]; exact same_setTv ..
        · exact .trans (same_setTv s t _) (same_add e)
      split at h
      · rename_i hne
        simp only [Option.some.injEq, Prod.mk.injEq] at h
        rw [← h.1]
        refine ⟨h1.1, h1.2.1, Or.inl ⟨fun e => hne e.symm, ?_⟩⟩
        show wakeBefore s1.waits time = _
        rw [h1.2.2]
      · rename_i hne
        simp only [Option.some.injEq, Prod.mk.injEq] at h
        rw [← h.1]
        exact ⟨h1.1, h1.2.1, Or.inr ⟨(Classical.not_not.mp hne).symm, h1.2.2⟩⟩

/-- A thread moves on, not to wait. -/
def Moved (s s' : Sel) (w : Nat) : Prop :=
  s'.waits = s.waits ∧ s'.queue = s.queue ∧ ∃ L, L ≠ .waiting ∧ s'.loc = upd s.loc w L

theorem Same.moved {a b c : Sel} {w : Nat} (x : Same a b) (y : Moved b c w) : Moved a c w := by
  obtain ⟨y1, y2, L, y3, y4⟩ := y
  exact ⟨y1.trans x.2.2, y2.trans x.2.1, L, y3, by rw [y4, x.1]⟩

theorem moved_finish {s s' : Sel} {w t : Nat} {now : Time} {count : Nat} {e : Ev}
    (h : s.finish w t now count = some (s', e)) : Moved s s' w := by
  unfold Sel.finish at h
  simp only at h
  split at h
  · cases h
  · rename_i s1 e1
    simp only [Option.some.injEq, Prod.mk.injEq] at h
    have h1 : Same s s1 := by
      split at e1
      · rw [← Option.some.inj e1]; exact ⟨rfl, rfl, rfl⟩
      · split at e1
        · rw [← Option.some.inj e1]; exact ⟨rfl, rfl, rfl⟩
        · exact .trans (same_setTv s t _) (same_add e1)
    refine h1.moved ?_
    rw [← h.1]
    exact ⟨rfl, rfl, .timers now count, by simp, rfl⟩

theorem moved_afterHandler {s s' : Sel} {w t : Nat} {now : Time} {count : Nat} {e : Ev}
    (h : s.afterHandler w t now count = some (s', e)) : Moved s s' w := by
  unfold Sel.afterHandler at h
  split at h
  · simp only [Option.some.injEq, Prod.mk.injEq] at h
    rw [← h.1]
    exact ⟨rfl, rfl, .inDone t now (count + 1), by simp, rfl⟩
  · exact moved_finish h

/-- A thread begins to wait. -/
def Waits (s s' : Sel) (w : Nat) (e : Ev) : Prop :=
  ∃ wake, e = .wait w wake ∧ s'.waits = ⟨w, wake, false⟩ :: s.waits ∧ s'.loc = upd s.loc w .waiting ∧ s'.queue = s.queue
    ∧ s.queue = []

theorem go_frame {s s' : Sel} {w : Nat} {e : Ev} (h : s.go w = some (s', e)) : Waits s s' w e ∨ Moved s s' w := by
  have done : ∀ now count, s.timersDone w now count = some (s', e) → Waits s s' w e ∨ Moved s s' w := by
    intro now count h
    unfold Sel.timersDone at h
    split at h
    · rename_i hq
      simp only [Option.some.injEq, Prod.mk.injEq] at h
      rw [← h.1, ← h.2]
      exact Or.inl ⟨_, rfl, rfl, rfl, rfl, hq.2⟩
    · simp only [Option.some.injEq, Prod.mk.injEq] at h
      rw [← h.1]
      exact Or.inr ⟨rfl, rfl, .out, by simp, rfl⟩
  unfold Sel.go at h
  split at h
  · rename_i rest ph count hl
    unfold Sel.runnersRound at h
    split at h
    · split at h
      · cases h
      · simp only [Option.some.injEq, Prod.mk.injEq] at h
        rw [← h.1]; exact Or.inr ⟨rfl, rfl, _, by simp, rfl⟩
    · split at h <;> simp only [Option.some.injEq, Prod.mk.injEq] at h <;> rw [← h.1] <;>
        exact Or.inr ⟨rfl, rfl, _, by simp, rfl⟩
  · rename_i now count hl
    unfold Sel.timersRound at h
    split at h
    · exact done _ _ h
    · rename_i t ht
      split at h
      · cases h
      · split at h
        · split at h
          · cases h
          · rename_i s1 e1
            have h1 := same_remove e1
            simp only at h
            split at h
            · exact Or.inr ((h1.trans (same_setTv _ _ _)).moved (moved_afterHandler h))
            · simp only [Option.some.injEq, Prod.mk.injEq] at h
              refine Or.inr (h1.moved ?_)
              rw [← h.1]
              exact ⟨rfl, rfl, _, by simp, rfl⟩
        · exact done _ _ h
  · cases h

theorem back_frame {s s' : Sel} {w : Nat} {e : Ev} (h : s.back w = some (s', e)) : (s.loc w ≠ .waiting ∧ Moved s s' w)
    ∨ (s.loc w = .waiting ∧ s'.waits = s.waits.filter (·.thread ≠ w) ∧ s'.queue = []
      ∧ ∃ L, L ≠ .waiting ∧ s'.loc = upd s.loc w L) := by
  unfold Sel.back at h
  simp only at h
  split at h
  · rename_i hw
    simp only [Option.some.injEq, Prod.mk.injEq] at h
    rw [← h.1, hw]; exact Or.inl ⟨by simp, rfl, rfl, _, by simp, rfl⟩
  · rename_i hw
    split at h
    · cases h
    · rw [hw]; exact Or.inl ⟨by simp, Same.moved (b := { s with lock := some w }) ⟨rfl, rfl, rfl⟩ (moved_afterHandler h)⟩
  · rename_i hw
    split at h
    · cases h
    · rw [hw]; exact Or.inl ⟨by simp, Same.moved (b := { s with lock := some w }) ⟨rfl, rfl, rfl⟩ (moved_finish h)⟩
  · rename_i hw
    simp only [Option.some.injEq, Prod.mk.injEq] at h
    rw [← h.1, hw]
    exact Or.inr ⟨rfl, rfl, rfl, _, by simp, rfl⟩
  · cases h

/-- What a step does to the threads, the queue of runners and the threads that wait. -/
theorem step_frame {s s' : Sel} {a : Act} {e : Ev} (h : s.step a = some (s', e)) :
    match a with
    | .tick _ | .allocTimer _ | .allocRunner _ | .stop _ | .free _ | .stopDone _ | .freeRunner _ => Same s s'
    | .start _ time => s'.loc = s.loc ∧ s'.queue = s.queue ∧ ((s'.heap.top ≠ s.heap.top ∧ s'.waits = wakeBefore s.waits time)
      ∨ (s'.heap.top = s.heap.top ∧ s'.waits = s.waits))
    | .run _ => s'.loc = s.loc ∧ ((s'.queue = s.queue ∧ s'.waits = s.waits) ∨ s'.waits = wakeFirst s.waits)
    | .enter w => s'.waits = s.waits ∧ s'.queue = [] ∧ ∃ L, L ≠ .waiting ∧ s'.loc = upd s.loc w L
    | .go w => Waits s s' w e ∨ Moved s s' w
    | .back w => (s.loc w ≠ .waiting ∧ Moved s s' w)
    ∨ (s.loc w = .waiting ∧ s'.waits = s.waits.filter (·.thread ≠ w) ∧ s'.queue = []
      ∧ ∃ L, L ≠ .waiting ∧ s'.loc = upd s.loc w L) := by
  have key : ∀ {α : Type} {o : Option α} {f : α → Sel × Ev}, o.map f = some (s', e) → ∃ x, o = some x ∧ f x = (s', e) := by
    intro α o f h
    rw [Option.map_eq_some_iff] at h
    exact h
  cases a <;> simp only [Sel.step] at h ⊢
  case tick | allocTimer | allocRunner =>
    simp only [Option.some.injEq, Prod.mk.injEq] at h
    rw [← h.1]; exact ⟨rfl, rfl, rfl⟩
  case enter =>
    simp only [Option.some.injEq, Prod.mk.injEq] at h
    rw [← h.1]; exact ⟨rfl, rfl, _, by simp, rfl⟩
  case start =>
    split at h
    · obtain ⟨x, h1, h2⟩ := key h
      simp only [Prod.mk.injEq] at h2
      rw [← h2.1]; exact start_frame (n := x.2) h1
    · cases h
  case stop =>
    split at h
    · obtain ⟨x, h1, h2⟩ := key h
      simp only [Prod.mk.injEq] at h2
      rw [← h2.1]; exact same_stopI (n := x.2) h1
    · cases h
  case stopDone =>
    split at h
    · obtain ⟨x, h1, h2⟩ := key h
      simp only [Prod.mk.injEq] at h2
      rw [← h2.1]; exact same_stopDone (n := x.2) h1
    · cases h
  case free =>
    split at h
    · obtain ⟨x, h1, h2⟩ := key h
      simp only [Prod.mk.injEq] at h2
      rw [← h2.1]; exact same_free h1
    · cases h
  case run =>
    split at h
    · simp only [Option.some.injEq, Prod.mk.injEq] at h
      rw [← h.1]
      unfold Sel.runRunner
      split
      · exact ⟨rfl, Or.inl ⟨rfl, rfl⟩⟩
      · exact ⟨rfl, Or.inr rfl⟩
    · cases h
  case freeRunner =>
    split at h
    · simp only [Option.some.injEq, Prod.mk.injEq] at h
      rw [← h.1]
      unfold Sel.freeRunner
      split <;> exact ⟨rfl, rfl, rfl⟩
    · cases h
  case go => exact go_frame h
  case back => exact back_frame h

/-- Signalling keeps the threads, the times and the signals. -/
structure Wakes (a b : List Wait) : Prop where
  fwd : ∀ x ∈ a, ∃ y ∈ b, y.thread = x.thread ∧ y.wake = x.wake ∧ (x.sig = true → y.sig = true)
  bwd : ∀ y ∈ b, ∃ x ∈ a, y.thread = x.thread

theorem Wakes.refl (a : List Wait) : Wakes a a :=
  ⟨fun x hx => ⟨x, hx, rfl, rfl, id⟩, fun y hy => ⟨y, hy, rfl⟩⟩

theorem wakes_before (a : List Wait) (time : Time) : Wakes a (wakeBefore a time) := by
  constructor
  · intro x hx
    refine ⟨_, List.mem_map.mpr ⟨x, hx, rfl⟩, ?_⟩
    split <;> simp
  · intro y hy
    obtain ⟨x, hx, rfl⟩ := List.mem_map.mp hy
    refine ⟨x, hx, ?_⟩
    split <;> rfl

theorem wakes_first (a : List Wait) : Wakes a (wakeFirst a) := by
  cases a with
  | nil => exact .refl _
  | cons x l =>
    constructor
    · intro z hz
      rw [List.mem_cons] at hz
      rcases hz with rfl | hz
      · exact ⟨_, List.mem_cons_self, rfl, rfl, fun _ => rfl⟩
      · exact ⟨z, List.mem_cons_of_mem _ hz, rfl, rfl, id⟩
    · intro y hy
      simp only [wakeFirst, List.mem_cons] at hy
      rcases hy with rfl | hy
      · exact ⟨x, List.mem_cons_self, rfl⟩
      · exact ⟨y, List.mem_cons_of_mem _ hy, rfl⟩

/-- Who waits is in the list. -/
def Listed (s : Sel) : Prop := ∀ w, s.loc w = .waiting ↔ ∃ x ∈ s.waits, x.thread = w

theorem Listed.wakes {s s' : Sel} (l : Listed s) (h1 : s'.loc = s.loc) (h2 : Wakes s.waits s'.waits) : Listed s' := by
  intro w
  rw [h1, l w]
  constructor
  · rintro ⟨x, hx, e⟩
    obtain ⟨y, hy, e1, -⟩ := h2.fwd x hx
    exact ⟨y, hy, e1.trans e⟩
  · rintro ⟨y, hy, e⟩
    obtain ⟨x, hx, e1⟩ := h2.bwd y hy
    exact ⟨x, hx, e1.symm.trans e⟩

theorem Listed.moved {s s' : Sel} (l : Listed s) {w : Nat} (h0 : s.loc w ≠ .waiting) (h1 : s'.waits = s.waits) {L : Loc}
    (h2 : L ≠ .waiting) (h3 : s'.loc = upd s.loc w L) : Listed s' := by
  intro v
  rw [h3, h1]
  by_cases e : v = w
  · subst e
    rw [upd_same, ← l v]
    exact ⟨fun h => absurd h h2, fun h => absurd h h0⟩
  · rw [upd_ne _ _ e]; exact l v

theorem Listed.step {s s' : Sel} (l : Listed s) {a : Act} {e : Ev} {p : Spec} (x : R s p) (hc : s.can a = true)
    (h : s.step a = some (s', e)) : Listed s' := by
  have f := step_frame h
  cases a <;> simp only at f
  case tick | allocTimer | allocRunner | stop | free | stopDone | freeRunner =>
    exact l.wakes f.1 (by rw [f.2.2]; exact .refl _)
  case start =>
    refine l.wakes f.1 ?_
    rcases f.2.2 with ⟨-, h⟩ | ⟨-, h⟩ <;> rw [h]
    · exact wakes_before ..
    · exact .refl _
  case run =>
    refine l.wakes f.1 ?_
    rcases f.2 with ⟨-, h⟩ | h <;> rw [h]
    · exact .refl _
    · exact wakes_first _
  case enter w =>
    obtain ⟨f1, f2, L, f3, f4⟩ := f
    simp only [Sel.can, Bool.and_eq_true, decide_eq_true_eq] at hc
    exact l.moved (by rw [hc.2]; simp) f1 f3 f4
  case go w =>
    simp only [Sel.can, decide_eq_true_eq] at hc
    have hh := (x.l.held w).mpr hc
    have h0 : s.loc w ≠ .waiting := fun e => by rw [e] at hh; cases hh
    rcases f with ⟨wake, f1, f2, f3, -⟩ | ⟨f1, f2, L, f3, f4⟩
    · intro v
      rw [f2, f3]
      by_cases e : v = w
      · subst e; rw [upd_same]; simp
      · rw [upd_ne _ _ e, l v]
        constructor
        · rintro ⟨y, hy, e⟩; exact ⟨y, List.mem_cons_of_mem _ hy, e⟩
        · rintro ⟨y, hy, e2⟩
          rw [List.mem_cons] at hy
          rcases hy with rfl | hy
          · exact absurd e2.symm e
          · exact ⟨y, hy, e2⟩
    · exact l.moved h0 f1 f3 f4
  case back w =>
    rcases f with ⟨h0, f1, f2, L, f3, f4⟩ | ⟨h0, f1, f2, L, f3, f4⟩
    · exact l.moved h0 f1 f3 f4
    · intro v
      rw [f1, f4]
      by_cases e : v = w
      · subst e
        rw [upd_same]
        constructor
        · intro h; exact absurd h f3
        · rintro ⟨y, hy, rfl⟩
          rw [List.mem_filter] at hy
          simp at hy
      · rw [upd_ne _ _ e, l v]
        constructor
        · rintro ⟨y, hy, rfl⟩
          exact ⟨y, List.mem_filter.mpr ⟨hy, by simpa using e⟩, rfl⟩
        · rintro ⟨y, hy, rfl⟩
          exact ⟨y, (List.mem_filter.mp hy).1, rfl⟩

theorem Run.listed {s : Sel} {p : Spec} (h : Run s p) : Listed s := by
  induction h with
  | init => intro w; simp [Sel.init]
  | step r hc _ he ih => exact ih.step r.r hc he

/-- A runner in the queue has woken somebody. -/
def Woken (s : Sel) : Prop := s.queue ≠ [] → s.waits = [] ∨ ∃ x ∈ s.waits, x.sig = true

theorem Woken.step {s s' : Sel} (l : Woken s) {a : Act} {e : Ev} (h : s.step a = some (s', e)) : Woken s' := by
  have f := step_frame h
  cases a <;> simp only at f
  case tick | allocTimer | allocRunner | stop | free | stopDone | freeRunner =>
    intro hq; rw [f.2.1] at hq; rw [f.2.2]; exact l hq
  case start =>
    intro hq; rw [f.2.1] at hq
    have w : Wakes s.waits s'.waits := by
      rcases f.2.2 with ⟨-, h⟩ | ⟨-, h⟩ <;> rw [h]
      · exact wakes_before ..
      · exact .refl _
    rcases l hq with h0 | ⟨x, hx, hs⟩
    · left
      cases hw : s'.waits with
      | nil => rfl
      | cons y l =>
        obtain ⟨x, hx, -⟩ := w.bwd y (by rw [hw]; exact List.mem_cons_self)
        rw [h0] at hx; cases hx
    · right
      obtain ⟨y, hy, -, -, h⟩ := w.fwd x hx
      exact ⟨y, hy, h hs⟩
  case run =>
    rcases f.2 with ⟨h1, h2⟩ | h
    · intro hq; rw [h1] at hq; rw [h2]; exact l hq
    · intro hq
      rw [h]
      cases s.waits with
      | nil => exact Or.inl rfl
      | cons x l => exact Or.inr ⟨_, List.mem_cons_self, rfl⟩
  case enter w => intro hq; exact absurd f.2.1 hq
  case go w =>
    rcases f with ⟨wake, f1, f2, f3, f4, f5⟩ | ⟨f1, f2, L, f3, f4⟩
    · intro hq; rw [f4, f5] at hq; exact absurd rfl hq
    · intro hq; rw [f2] at hq; rw [f1]; exact l hq
  case back w =>
    rcases f with ⟨h0, f1, f2, L, f3, f4⟩ | ⟨h0, f1, f2, L, f3, f4⟩
    · intro hq; rw [f2] at hq; rw [f1]; exact l hq
    · intro hq; exact absurd f2 hq

theorem Run.woken {s : Sel} {p : Spec} (h : Run s p) : Woken s := by
  induction h with
  | init => intro h; exact absurd rfl h
  | step _ _ _ he ih => exact ih.step he

/-- What a pool of threads does: only its threads call the selector, and `sel_stop_timer_with_done` is called only while
some thread of the pool is not waiting, for example by that thread. -/
def Pool (pool : Nat → Prop) (s : Sel) : Act → Prop
  | .enter w => pool w
  | .stopDone _ => ∃ w, pool w ∧ s.loc w ≠ .waiting
  | _ => True

/-- `Run` with a pool of threads. -/
inductive PRun (pool : Nat → Prop) : Sel → Spec → Prop
  | init (val : Nat → Tv) (left right up : Nat → Option Nat) (inUse : Nat → Bool) (clock : Time) :
      PRun pool (Sel.init val left right up inUse clock) (Spec.init clock)
  | step {s s' : Sel} {p : Spec} {a : Act} {e : Ev} : PRun pool s p → s.can a = true → p.allowed a → Pool pool s a →
      s.step a = some (s', e) → PRun pool s' (p.after a e)

theorem PRun.run {pool : Nat → Prop} {s : Sel} {p : Spec} (h : PRun pool s p) : Run s p := by
  induction h with
  | init => exact .init ..
  | step _ hc ha _ he ih => exact .step ih hc ha he

/-- Every timer is waited for. -/
structure Cov (pool : Nat → Prop) (s : Sel) (p : Spec) : Prop where
  ent : ∀ w, s.loc w ≠ .out → pool w
  cov : (∀ w, pool w → s.loc w = .waiting) → ∀ t time, (p.timer t).armed = some time → (p.timer t).busy = .idle →
    ∃ x ∈ s.waits, x.sig = true ∨ tcmp x.wake time ≤ 0
  nop : (∀ w, pool w → s.loc w = .waiting) → ∀ t, (p.timer t).busy ≠ .pending

/-- Nothing new to wait for. -/
theorem Cov.less {pool : Nat → Prop} {s s' : Sel} {p p' : Spec} (c : Cov pool s p) (h1 : s'.loc = s.loc)
    (h2 : Wakes s.waits s'.waits)
    (h3 : ∀ t, p'.timer t = p.timer t ∨ ((p'.timer t).armed = none ∧ (p'.timer t).busy ≠ .pending)) : Cov pool s' p' := by
  refine ⟨by rw [h1]; exact c.ent, ?_, ?_⟩
  · intro h t time e1 e2
    rw [h1] at h
    rcases h3 t with e | ⟨e, -⟩
    · rw [e] at e1 e2
      obtain ⟨x, hx, hs⟩ := c.cov h t time e1 e2
      obtain ⟨y, hy, -, g1, g2⟩ := h2.fwd x hx
      exact ⟨y, hy, by rw [g1]; exact hs.imp_left g2⟩
    · rw [e] at e1; cases e1
  · intro h t
    rw [h1] at h
    rcases h3 t with e | ⟨-, e⟩
    · rw [e]; exact c.nop h t
    · exact e

/-- A thread of the pool does not wait. -/
theorem Cov.active {pool : Nat → Prop} {s s' : Sel} {p p' : Spec} (c : Cov pool s p) {w : Nat} (hp : pool w) {L : Loc}
    (h2 : L ≠ .waiting) (h3 : s'.loc = upd s.loc w L) : Cov pool s' p' := by
  have no : ¬ ∀ v, pool v → s'.loc v = .waiting := by
    intro h
    have := h w hp
    rw [h3, upd_same] at this
    exact h2 this
  refine ⟨?_, fun h => absurd h no, fun h => absurd h no⟩
  intro v hv
  rw [h3] at hv
  by_cases e : v = w
  · rw [e]; exact hp
  · rw [upd_ne _ _ e] at hv; exact c.ent v hv

theorem setT_timer (q : Spec) (u t : Nat) (v : TS) : (q.setT u v).timer t = if t = u then v else q.timer t := by
  simp only [Spec.setT, upd]

theorem Cov.step {pool : Nat → Prop} {s s' : Sel} {p : Spec} (c : Cov pool s p) {a : Act} {e : Ev} (r : Run s p)
    (hc : s.can a = true) (ha : p.allowed a) (hp : Pool pool s a) (hne : ∃ w, pool w) (h : s.step a = some (s', e)) :
    Cov pool s' (p.after a e) := by
  have f := step_frame h
  have x := r.r
  have x' : R s' (p.after a e) := (Run.step r hc ha h).r
  obtain ⟨ok, due⟩ : p.timerOk a e ∧ p.dueOk e := by
    obtain ⟨s2, e2, g1, -, g2, g3, -⟩ := step_spec x hc ha
    rw [h] at g1
    have := Option.some.inj g1
    simp only [Prod.mk.injEq] at this
    rw [this.2]; exact ⟨g2, g3⟩
  cases a <;> simp only at f
  case tick | allocRunner => exact c.less f.1 (by rw [f.2.2]; exact .refl _) (fun t => Or.inl rfl)
  case freeRunner =>
    refine c.less f.1 (by rw [f.2.2]; exact .refl _) (fun t => Or.inl ?_)
    simp only [Spec.after]; split <;> rfl
  case run =>
    refine c.less f.1 ?_ (fun t => Or.inl ?_)
    · rcases f.2 with ⟨-, h⟩ | h <;> rw [h]
      · exact .refl _
      · exact wakes_first _
    · simp only [Spec.after]; split <;> rfl
  case allocTimer q =>
    refine c.less f.1 (by rw [f.2.2]; exact .refl _) (fun t => ?_)
    simp only [Spec.after, setT_timer]
    split
    · right; simp
    · left; rfl
  case stop q | free q =>
    refine c.less f.1 (by rw [f.2.2]; exact .refl _) (fun t => ?_)
    simp only [Spec.after, setT_timer]
    split
    · right
      cases (p.timer q).busy <;> simp [Busy.stop]
    · left; rfl
  case stopDone q =>
    obtain ⟨w, h1, h2⟩ := hp
    have no : ¬ ∀ v, pool v → s'.loc v = .waiting := by
      intro h; have := h w h1; rw [f.1] at this; exact h2 this
    exact ⟨by rw [f.1]; exact c.ent, fun h => absurd h no, fun h => absurd h no⟩
  case enter w =>
    obtain ⟨f1, f2, L, f3, f4⟩ := f
    exact c.active hp f3 f4
  case back w =>
    have hw : pool w := by
      apply c.ent
      intro e; simp [Sel.can, e] at hc
    rcases f with ⟨-, -, -, L, f3, f4⟩ | ⟨-, -, -, L, f3, f4⟩ <;> exact c.active hw f3 f4
  case go w =>
    have hw : pool w := by
      apply c.ent
      simp only [Sel.can, decide_eq_true_eq] at hc
      have hh := (x.l.held w).mpr hc
      intro e; rw [e] at hh; cases hh
    rcases f with ⟨wake, f1, f2, f3, -⟩ | ⟨-, -, L, f3, f4⟩
    · subst f1
      simp only [Spec.dueOk] at due
      refine ⟨?_, fun _ t time h1 h2 => ?_, fun _ t => due.2.1 t⟩
      · intro v hv
        rw [f3] at hv
        by_cases e : v = w
        · rw [e]; exact hw
        · rw [upd_ne _ _ e] at hv; exact c.ent v hv
      · rw [f2]
        exact ⟨_, List.mem_cons_self, Or.inr (due.2.2 t time h1 h2).1⟩
    · exact c.active hw f3 f4
  case start q time =>
    have wk : Wakes s.waits s'.waits := by
      rcases f.2.2 with ⟨-, h⟩ | ⟨-, h⟩ <;> rw [h]
      · exact wakes_before ..
      · exact .refl _
    simp only [Spec.timerOk] at ok
    rcases ok with ⟨-, rfl⟩ | ⟨nq, rfl⟩
    · exact c.less f.1 wk (fun t => Or.inl (by simp [Spec.after, eBusy]))
    · have tq : ∀ t, ((p.after (.start q time) (.ret 0)).timer t) =
          if t = q then { p.timer q with armed := some time } else p.timer t := by
        intro t; simp only [Spec.after, if_true, setT_timer]
      refine ⟨by rw [f.1]; exact c.ent, ?_, ?_⟩
      · intro hall t tm h1 h2
        rw [f.1] at hall
        by_cases e : t = q
        · subst e
          rw [tq t, if_pos rfl] at h1 h2
          have : tm = time := (Option.some.inj h1).symm
          subst this
          rcases f.2.2 with ⟨-, hw⟩ | ⟨ht, hw⟩
          · obtain ⟨v, hv⟩ := hne
            obtain ⟨y, hy, -⟩ := (r.listed v).mp (hall v hv)
            rw [hw]
            refine ⟨_, List.mem_map.mpr ⟨y, hy, rfl⟩, ?_⟩
            split
            · left; rfl
            · right; rename_i hn; exact tcmp_ge.mp (by omega)
          · cases htop : s'.heap.top with
            | none =>
              refine absurd (Or.inl ⟨?_, ?_⟩) (due_none x' htop t)
              · rw [tq t, if_pos rfl]; simp
              · rw [tq t, if_pos rfl]; exact h2
            | some t0 =>
              rw [htop] at ht
              have q0 := (due_some x ht.symm).1
              have hne0 : t0 ≠ t := fun e => nq (e ▸ q0)
              rcases q0 with ⟨harm, hidle⟩ | hpend
              · obtain ⟨time0, h0⟩ := Option.ne_none_iff_exists'.mp harm
                obtain ⟨y, hy, hs⟩ := c.cov hall t0 time0 h0 hidle
                rw [hw]
                refine ⟨y, hy, hs.imp_right fun g => tcmp_trans g ?_⟩
                have hm := (due_some x' htop).2 t (Or.inl ⟨by rw [tq t, if_pos rfl]; simp, by rw [tq t, if_pos rfl]; exact h2⟩)
                rw [(x'.t.tr t0).time time0 (by rw [tq t0, if_neg hne0]; exact h0),
                  (x'.t.tr t).time tm (by rw [tq t, if_pos rfl])] at hm
                exact hm
              · exact absurd hpend (c.nop hall t0)
        · rw [tq t, if_neg e] at h1 h2
          obtain ⟨y, hy, hs⟩ := c.cov hall t tm h1 h2
          obtain ⟨z, hz, -, g1, g2⟩ := wk.fwd y hy
          exact ⟨z, hz, by rw [g1]; exact hs.imp_left g2⟩
      · intro hall t
        rw [f.1] at hall
        rw [tq t]
        split
        · exact c.nop hall q
        · exact c.nop hall t

theorem PRun.cov {pool : Nat → Prop} (hne : ∃ w, pool w) {s : Sel} {p : Spec} (h : PRun pool s p) : Cov pool s p := by
  induction h with
  | init =>
    refine ⟨?_, ?_, ?_⟩
    · intro w h; exact absurd rfl h
    · intro _ t time h; simp [Spec.init] at h
    · intro _ t; simp [Spec.init]
  | step pr hc ha hp he ih => exact ih.step pr.run hc ha hp hne he

end Gensio.Sel
