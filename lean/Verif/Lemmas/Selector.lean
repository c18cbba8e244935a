import Verif.Model.SelectorSpec
import Verif.Props.Heap

/-!
# Lemmas about the selector: what it does is what the account allows
-/

namespace Gensio.Sel

open Gensio.Heap (Heap upd Inv Total total_cmpTimeval)

theorem total_kcmp : Total kcmp :=
  ⟨fun x y => total_cmpTimeval.anti x.timeout y.timeout,
   fun x y z => total_cmpTimeval.trans x.timeout y.timeout z.timeout⟩

theorem upd_same {α : Type} (f : Nat → α) (p : Nat) (v : α) : upd f p v p = v := by simp [upd]
theorem upd_ne {α : Type} (f : Nat → α) {p q : Nat} (v : α) (h : q ≠ p) : upd f p v q = f q := by simp [upd, h]
theorem upd_upd {α : Type} (f : Nat → α) (p : Nat) (v w : α) : upd (upd f p v) p w = upd f p w := by
  funext q; by_cases h : q = p <;> simp [upd, h]

/-! ## The heap -/

/-- Storing something that keeps the times of the entries. -/
theorem Inv.reval {h : Heap Tv} {l : List Nat} (i : Inv kcmp h l) (v : Nat → Tv)
    (hv : ∀ p ∈ l, (v p).timeout = (h.val p).timeout) : Inv kcmp { h with val := v } l := by
  obtain ⟨⟨a, r, o, m⟩, nd⟩ := i
  refine ⟨⟨a, ⟨r.inj, r.left, r.right, r.up, r.top, r.last⟩, fun k hk h0 => ?_, m⟩, nd⟩
  have h1 := hv (a k) ((m _).mpr ⟨k, hk, rfl⟩)
  have h2 := hv (a ((k - 1) / 2)) ((m _).mpr ⟨(k - 1) / 2, by omega, rfl⟩)
  have := o k hk h0
  simp only [kcmp] at this ⊢
  rw [h1, h2]
  exact this

theorem Inv.top_none {h : Heap Tv} {l : List Nat} (i : Inv kcmp h l) (e : h.top = none) : l = [] := by
  obtain ⟨⟨a, r, o, m⟩, nd⟩ := i
  rw [r.top] at e
  cases l with
  | nil => rfl
  | cons x l => simp at e

theorem Inv.top_some {h : Heap Tv} {l : List Nat} (i : Inv kcmp h l) {t : Nat} (e : h.top = some t) :
    t ∈ l ∧ ∀ q ∈ l, tcmp (h.val t).timeout (h.val q).timeout ≤ 0 := by
  obtain ⟨⟨a, r, o, m⟩, nd⟩ := i
  rw [r.top] at e
  split at e
  · cases e
  · obtain rfl := Option.some.inj e
    refine ⟨(m _).mpr ⟨0, by omega, rfl⟩, fun q hq => ?_⟩
    obtain ⟨k, hk, rfl⟩ := (m q).mp hq
    exact o.min total_kcmp k hk

theorem heapAdd_spec {s : Sel} {l : List Nat} (i : Inv kcmp s.heap l) (hl : l.length ≤ s.adds) {t : Nat} (ht : t ∉ l) :
    ∃ h, s.heapAdd t = some { s with heap := h, adds := s.adds + 1 } ∧ Inv kcmp h (t :: l)
      ∧ h.val = upd s.heap.val t { s.heap.val t with inHeap := true } := by
  obtain ⟨h, e1, e2, e3⟩ := i.add total_kcmp (fuel := s.adds + 1) ht (by omega)
  refine ⟨{ h with val := upd h.val t { h.val t with inHeap := true } }, ?_, ?_, by rw [e3]⟩
  · simp only [Sel.heapAdd, e1, Sel.setTv]
  · refine Inv.reval e2 _ (fun p _ => ?_)
    by_cases hp : p = t
    · subst hp; rw [upd_same]
    · rw [upd_ne _ _ hp]

theorem heapRemove_spec {s : Sel} {l : List Nat} (i : Inv kcmp s.heap l) (hl : l.length ≤ s.adds) {t : Nat} (ht : t ∈ l) :
    ∃ h, s.heapRemove t = some { s with heap := h } ∧ Inv kcmp h (l.filter (· ≠ t))
      ∧ h.val = upd s.heap.val t { s.heap.val t with inHeap := false } := by
  obtain ⟨h, e1, e2, e3⟩ := i.remove total_kcmp (fuel := s.adds) ht (by omega)
  refine ⟨{ h with val := upd h.val t { h.val t with inHeap := false } }, ?_, ?_, by rw [e3]⟩
  · simp only [Sel.heapRemove, e1, Sel.setTv]
  · refine Inv.reval e2 _ (fun p _ => ?_)
    by_cases hp : p = t
    · subst hp; rw [upd_same]
    · rw [upd_ne _ _ hp]

/-! ## The relation between the timers and the account -/

/-- One timer. -/
structure TR (v : Tv) (live : Bool) (ts : TS) (clock : Time) : Prop where
  lv : live = true ↔ ts.alive = true ∨ ts.busy ≠ .idle
  dead : ts.alive = false → ts.armed = none
  inHeap : live = true → (v.inHeap = true ↔ ts.queued)
  stopped : ts.alive = true → (v.stopped = true ↔ ts.armed = none)
  freed : live = true → (v.freed = true ↔ ts.alive = false)
  handler : live = true → (v.inHandler = true ↔ ts.busy ≠ .idle)
  done : live = true → (v.done = true ↔ ts.busy = .pending ∨ ts.busy = .stuck)
  time : ∀ x, ts.armed = some x → v.timeout = x
  due : ts.busy = .pending → tcmp v.timeout clock ≤ 0
  unarmed : ts.busy = .pending → ts.armed = none

/-- All timers and the heap. -/
structure RT (h : Heap Tv) (live : Nat → Bool) (adds : Nat) (timer : Nat → TS) (clock : Time) : Prop where
  heap : ∃ l, Inv kcmp h l ∧ l.length ≤ adds ∧ ∀ t, t ∈ l ↔ (timer t).queued
  tr : ∀ t, TR (h.val t) (live t) (timer t) clock

/-- The timer whose handler a thread is in. -/
def Loc.timer? : Loc → Option Nat
  | .inHandler t _ _ | .inDone t _ _ => some t
  | _ => none

/-- The runners a thread has taken from the queue. -/
def Loc.rest : Loc → List Nat
  | .runners rest _ _ | .inRunner _ rest _ _ => rest
  | _ => []

/-- The thread holds the lock. -/
def Loc.held : Loc → Bool
  | .runners .. | .timers .. => true
  | _ => false

/-- The runners. -/
structure RR (queue : List Nat) (rest : Nat → List Nat) (inUse rlive : Nat → Bool) (pend ralive : Nat → Bool) : Prop where
  nodupQ : queue.Nodup
  nodup : ∀ w, (rest w).Nodup
  disjQ : ∀ r w, r ∈ queue → r ∉ rest w
  disj : ∀ r w w', r ∈ rest w → r ∈ rest w' → w = w'
  pd : ∀ r, pend r = true ↔ r ∈ queue ∨ ∃ w, r ∈ rest w
  lv : rlive = ralive
  use : ∀ r, rlive r = true → inUse r = pend r
  plive : ∀ r, pend r = true → rlive r = true

/-- The thread is before its wait. -/
def Loc.early : Loc → Bool
  | .runners _ .before _ | .inRunner _ _ .before _ | .timers .. | .inHandler .. | .inDone .. => true
  | _ => false

/-- The threads. -/
structure RL (loc : Nat → Loc) (lock : Option Nat) (clock : Time) (val : Nat → Tv) (timer : Nat → TS)
    (entered : Nat → Option Time) : Prop where
  run : ∀ t w, (timer t).busy = .running w ↔ (loc w).timer? = some t
  held : ∀ w, (loc w).held = true ↔ lock = some w
  now : ∀ w now n, (loc w = .timers now n ∨ (∃ t, loc w = .inHandler t now n ∨ loc w = .inDone t now n)) →
    tcmp now clock ≤ 0 ∧ ∀ e, entered w = some e → tcmp e now ≤ 0
  nopend : ∀ w now, loc w = .timers now 0 → ∀ t, (timer t).busy = .pending → tcmp (val t).timeout now ≤ 0
  ent : ∀ w e, entered w = some e → tcmp e clock ≤ 0
  early : ∀ w, (loc w).early = true ↔ entered w ≠ none
  count : ∀ w t now n, loc w = .inDone t now n → n ≠ 0

structure R (s : Sel) (p : Spec) : Prop where
  t : RT s.heap s.live s.adds p.timer p.clock
  r : RR s.queue (fun w => (s.loc w).rest) s.inUse s.rlive p.pend p.ralive
  l : RL s.loc s.lock p.clock s.heap.val p.timer p.entered
  clock : s.clock = p.clock

theorem R.init (val : Nat → Tv) (left right up : Nat → Option Nat) (inUse : Nat → Bool) (clock : Time) :
    R (Sel.init val left right up inUse clock) (Spec.init clock) := by
  refine ⟨⟨⟨[], Inv.init kcmp val left right up, by simp, ?_⟩, ?_⟩, ⟨?_, ?_, ?_, ?_, ?_, ?_, ?_, ?_⟩, ⟨?_, ?_, ?_, ?_, ?_, ?_, ?_⟩,
    rfl⟩
  · intro t; simp [Spec.init, TS.queued]
  · intro t
    constructor <;> simp [Spec.init, Sel.init]
  all_goals simp [Spec.init, Sel.init, Loc.rest, Loc.timer?, Loc.held, Loc.early]

/-! ## Steps on one timer -/

/-- The shape of every step on one timer: the heap gains or loses it or neither, and its memory changes. -/
theorem RT.one {h h' : Heap Tv} {live live' : Nat → Bool} {adds adds' : Nat} {timer : Nat → TS} {clock : Time}
    (r : RT h live adds timer clock) (t : Nat) (v : Tv) (ts : TS) (lv : Bool)
    (hv : h'.val = upd h.val t v) (hl : live' = upd live t lv)
    (hh : ∃ l, Inv kcmp h' l ∧ l.length ≤ adds' ∧ ∀ q, q ∈ l ↔ (upd timer t ts q).queued)
    (ht : TR v lv ts clock) : RT h' live' adds' (upd timer t ts) clock := by
  refine ⟨hh, fun q => ?_⟩
  rw [hv, hl]
  by_cases hq : q = t
  · subst hq; simp only [upd_same]; exact ht
  · simp only [upd_ne _ _ hq]; exact r.tr q

/-- The heap keeps its entries. -/
theorem RT.keep {h : Heap Tv} {live : Nat → Bool} {adds : Nat} {timer : Nat → TS} {clock : Time}
    (r : RT h live adds timer clock) (t : Nat) (v : Tv) (ts : TS)
    (hq : ts.queued ↔ (timer t).queued) (hv : (timer t).queued → v.timeout = (h.val t).timeout) :
    ∃ l, Inv kcmp { h with val := upd h.val t v } l ∧ l.length ≤ adds ∧ ∀ q, q ∈ l ↔ (upd timer t ts q).queued := by
  obtain ⟨l, i, hl, m⟩ := r.heap
  refine ⟨l, Inv.reval i _ (fun p hp => ?_), hl, fun q => ?_⟩
  · by_cases e : p = t
    · subst e; rw [upd_same]; exact hv ((m p).mp hp)
    · rw [upd_ne _ _ e]
  · rw [m q]
    by_cases e : q = t
    · subst e; rw [upd_same, hq]
    · rw [upd_ne _ _ e]

/-- The heap gains the timer; `v0` is what was stored in it before. -/
theorem RT.gain {s : Sel} {timer : Nat → TS} {clock : Time}
    (r : RT s.heap s.live s.adds timer clock) (t : Nat) (v0 : Tv) (ts : TS)
    (hq : ¬ (timer t).queued) (hts : ts.queued) :
    ∃ h, (s.setTv t v0).heapAdd t = some { s with heap := h, adds := s.adds + 1 }
      ∧ h.val = upd s.heap.val t { v0 with inHeap := true }
      ∧ ∃ l, Inv kcmp h l ∧ l.length ≤ s.adds + 1 ∧ ∀ q, q ∈ l ↔ (upd timer t ts q).queued := by
  obtain ⟨l, i, hl, m⟩ := r.heap
  have hn : t ∉ l := fun e => hq ((m t).mp e)
  obtain ⟨h, e1, e2, e3⟩ := heapAdd_spec (s := s.setTv t v0) (t := t) (Inv.reval i _ (fun p hp => by
    rw [upd_ne]; rintro rfl; exact hn hp)) hl hn
  refine ⟨h, e1, ?_, t :: l, e2, by simp; exact hl, fun q => ?_⟩
  · rw [e3]
    simp only [Sel.setTv, upd_same, upd_upd]
  · rw [List.mem_cons, m q]
    by_cases e : q = t
    · subst e; rw [upd_same]; simp [hts]
    · rw [upd_ne _ _ e]; simp [e]

/-- The heap loses the timer. -/
theorem RT.lose {s : Sel} {timer : Nat → TS} {clock : Time}
    (r : RT s.heap s.live s.adds timer clock) (t : Nat) (v0 : Tv) (ts : TS)
    (hv0 : v0.timeout = (s.heap.val t).timeout)
    (hq : (timer t).queued) (hts : ¬ ts.queued) :
    ∃ h, (s.setTv t v0).heapRemove t = some { s with heap := h }
      ∧ h.val = upd s.heap.val t { v0 with inHeap := false }
      ∧ ∃ l, Inv kcmp h l ∧ l.length ≤ s.adds ∧ ∀ q, q ∈ l ↔ (upd timer t ts q).queued := by
  obtain ⟨l, i, hl, m⟩ := r.heap
  have hn : t ∈ l := (m t).mpr hq
  obtain ⟨h, e1, e2, e3⟩ := heapRemove_spec (s := s.setTv t v0) (t := t) (Inv.reval i _ (fun p hp => by
    by_cases e : p = t
    · subst e; rw [upd_same]; exact hv0
    · rw [upd_ne _ _ e])) hl hn
  refine ⟨h, e1, ?_, l.filter (· ≠ t), e2, ?_, fun q => ?_⟩
  · rw [e3]
    simp only [Sel.setTv, upd_same, upd_upd]
  · exact Nat.le_trans (List.length_filter_le _ _) hl
  · rw [List.mem_filter, m q]
    by_cases e : q = t
    · subst e; rw [upd_same]; simp [hts]
    · rw [upd_ne _ _ e]; simp [e]

theorem setTv_self (s : Sel) (t : Nat) : s.setTv t (s.heap.val t) = s := by
  have : upd s.heap.val t (s.heap.val t) = s.heap.val := by
    funext q; by_cases h : q = t <;> simp [upd, h]
  simp only [Sel.setTv, this]

/-- A later store that keeps the time. -/
theorem heap_reval {h : Heap Tv} {P : List Nat → Prop} (hh : ∃ l, Inv kcmp h l ∧ P l) (t : Nat) (v : Tv)
    (hv : v.timeout = (h.val t).timeout) : ∃ l, Inv kcmp { h with val := upd h.val t v } l ∧ P l := by
  obtain ⟨l, i, hp⟩ := hh
  refine ⟨l, Inv.reval i _ (fun p _ => ?_), hp⟩
  by_cases e : p = t
  · subst e; rw [upd_same]; exact hv
  · rw [upd_ne _ _ e]

/-- A call from outside does not change what the threads in the selector are doing. -/
theorem RL.api {loc : Nat → Loc} {clock : Time} {val val' : Nat → Tv} {timer timer' : Nat → TS}
    {entered : Nat → Option Time} (l : RL loc none clock val timer entered)
    (h : ∀ t w, (timer' t).busy = .running w ↔ (timer t).busy = .running w) :
    RL loc none clock val' timer' entered := by
  refine ⟨fun t w => (h t w).trans (l.run t w), l.held, l.now, fun w now e => ?_, l.ent, l.early, l.count⟩
  have := (l.held w).mp (by rw [e]; rfl)
  cases this

theorem RL.api1 {loc : Nat → Loc} {clock : Time} {val val' : Nat → Tv} {timer : Nat → TS}
    {entered : Nat → Option Time} (l : RL loc none clock val timer entered) (t : Nat) (ts : TS)
    (h : ∀ w, ts.busy = .running w ↔ (timer t).busy = .running w) :
    RL loc none clock val' (upd timer t ts) entered := by
  refine l.api (fun q w => ?_)
  by_cases e : q = t
  · subst e; rw [upd_same]; exact h w
  · rw [upd_ne _ _ e]

theorem upd_self {α : Type} (f : Nat → α) (p : Nat) (v : α) (h : f p = v) : upd f p v = f := by
  funext q; by_cases e : q = p
  · subst e; rw [upd_same, h]
  · rw [upd_ne _ _ e]

theorem start_spec {s : Sel} {p : Spec} (x : R s p) (hl : s.lock = none) {t : Nat} (ha : (p.timer t).alive = true)
    (time : Time) : ∃ s' n, s.startTimer t time = some (s', n) ∧ R s' (p.after (.start t time) (.ret n))
      ∧ p.timerOk (.start t time) (.ret n) := by
  have tr := x.t.tr t
  have lv : s.live t = true := tr.lv.mpr (Or.inl ha)
  have xl := x.l; rw [hl] at xl
  unfold Sel.startTimer
  by_cases q : (p.timer t).queued
  · rw [if_pos ((tr.inHeap lv).mpr q)]
    exact ⟨s, eBusy, rfl, x, Or.inl ⟨q, rfl⟩⟩
  · have nh : ¬ (s.heap.val t).inHeap = true := fun e => q ((tr.inHeap lv).mp e)
    rw [if_neg nh]
    simp only
    by_cases bi : (p.timer t).busy = .idle
    · have hh : ((s.setTv t { s.heap.val t with timeout := time }).heap.val t).inHandler = false := by
        simp only [Sel.setTv, upd_same]
        have := tr.handler lv
        simp_all
      obtain ⟨h, e1, e2, e3⟩ := x.t.gain t { s.heap.val t with timeout := time } { p.timer t with armed := some time } q
        (Or.inl ⟨by simp, bi⟩)
      have hR : ∀ ws, R { s with heap := { h with val := upd h.val t { h.val t with stopped := false } }, adds := s.adds + 1, waits := ws }
          (p.setT t { p.timer t with armed := some time }) := by
        intro ws
        refine ⟨x.t.one t { s.heap.val t with timeout := time, inHeap := true, stopped := false } _ (s.live t) ?_ ?_
          (heap_reval e3 t _ rfl) ?_, x.r, ?_, x.clock⟩
        · simp only [e2, upd_upd, upd_same]
        · exact (upd_self _ _ _ rfl).symm
        · have qq := q
          constructor <;> simp_all [TS.queued] <;> grind [tr.freed, tr.handler, tr.done]
        · simp only [hl]
          exact xl.api1 t _ (fun w => Iff.rfl)
      rw [hh]
      simp only [Bool.false_eq_true, if_false, e1]
      have ha : p.after (.start t time) (.ret 0) = p.setT t { p.timer t with armed := some time } := rfl
      split
      · exact ⟨_, 0, rfl, ha ▸ hR _, Or.inr ⟨q, rfl⟩⟩
      · exact ⟨_, 0, rfl, ha ▸ hR _, Or.inr ⟨q, rfl⟩⟩
    · have hh : ((s.setTv t { s.heap.val t with timeout := time }).heap.val t).inHandler = true := by
        simp only [Sel.setTv, upd_same]
        exact (tr.handler lv).mpr bi
      rw [hh]
      simp only [if_true]
      have hR : R ((s.setTv t { s.heap.val t with timeout := time }).setTv t
            { s.heap.val t with timeout := time, stopped := false })
          (p.setT t { p.timer t with armed := some time }) := by
        have hq : ¬ ({ p.timer t with armed := some time } : TS).queued := by
          simp only [TS.queued] at q ⊢
          simp_all
        refine ⟨x.t.one t { s.heap.val t with timeout := time, stopped := false } _ (s.live t) ?_ ?_ ?_ ?_, x.r, ?_, x.clock⟩
        · simp only [Sel.setTv, upd_upd]
        · exact (upd_self _ _ _ rfl).symm
        · simp only [Sel.setTv, upd_upd]
          exact x.t.keep t _ _ ⟨fun e => absurd e hq, fun e => absurd e q⟩ (fun e => absurd e q)
        · constructor <;> simp_all [TS.queued] <;> grind [tr.freed, tr.handler, tr.done]
        · simp only [hl, Sel.setTv]
          exact xl.api1 t _ (fun w => Iff.rfl)
      have hv : (s.setTv t { s.heap.val t with timeout := time }).heap.val t = { s.heap.val t with timeout := time } := by
        simp only [Sel.setTv, upd_same]
      simp only [hv]
      rw [if_neg (by simp [Sel.setTv])]
      exact ⟨_, 0, rfl, hR, Or.inr ⟨q, rfl⟩⟩

end Gensio.Sel
