import Verif.Lemmas.SelectorApi

/-!
# Lemmas about the selector: the steps of the threads in it
-/

namespace Gensio.Sel

open Gensio.Heap (Heap upd Inv)

theorem tcmp_le {a b : Time} : tcmp a b ≤ 0 ↔ a.1 < b.1 ∨ (a.1 = b.1 ∧ a.2 ≤ b.2) := by
  simp only [tcmp, Heap.cmpTimeval]
  split
  · omega
  · split
    · omega
    · split
      · omega
      · split <;> omega

theorem tcmp_lt {a b : Time} : tcmp a b < 0 ↔ a.1 < b.1 ∨ (a.1 = b.1 ∧ a.2 < b.2) := by
  simp only [tcmp, Heap.cmpTimeval]
  split
  · omega
  · split
    · omega
    · split
      · omega
      · split <;> omega

theorem tcmp_refl (a : Time) : tcmp a a ≤ 0 := by rw [tcmp_le]; omega

theorem tcmp_trans {a b c : Time} (h : tcmp a b ≤ 0) (g : tcmp b c ≤ 0) : tcmp a c ≤ 0 := by
  rw [tcmp_le] at *; omega

theorem tcmp_lt_of_lt_of_le {a b c : Time} (h : tcmp a b < 0) (g : tcmp b c ≤ 0) : tcmp a c < 0 := by
  rw [tcmp_le] at g; rw [tcmp_lt] at *; omega

theorem tcmp_lt_of_le_of_lt {a b c : Time} (h : tcmp a b ≤ 0) (g : tcmp b c < 0) : tcmp a c < 0 := by
  rw [tcmp_le] at h; rw [tcmp_lt] at *; omega

/-- For the test `cmp_timeval(&now, &timeout) >= 0`. -/
theorem tcmp_ge {a b : Time} : tcmp a b ≥ 0 ↔ tcmp b a ≤ 0 := by
  have := @tcmp_lt a b; have := @tcmp_le b a; omega

/-- One thread moves. -/
theorem RL.move {loc : Nat → Loc} {lock lock' : Option Nat} {clock : Time} {val val' : Nat → Tv} {timer timer' : Nat → TS}
    {entered entered' : Nat → Option Time} (l : RL loc lock clock val timer entered) (w : Nat) (L : Loc)
    (hlock : lock = none ∨ lock = some w) (hlock' : lock' = if L.held then some w else none)
    (ht : ∀ t v, v ≠ w → ((timer' t).busy = .running v ↔ (timer t).busy = .running v))
    (htw : ∀ t, (timer' t).busy = .running w ↔ L.timer? = some t)
    (he : ∀ v, v ≠ w → entered' v = entered v)
    (hew : L.early = true ↔ entered' w ≠ none)
    (hent : ∀ e, entered' w = some e → tcmp e clock ≤ 0)
    (hnow : ∀ now n, (L = .timers now n ∨ (∃ t, L = .inHandler t now n ∨ L = .inDone t now n)) →
      tcmp now clock ≤ 0 ∧ ∀ e, entered' w = some e → tcmp e now ≤ 0)
    (hnp : ∀ now, L = .timers now 0 → ∀ t, (timer' t).busy = .pending → tcmp (val' t).timeout now ≤ 0)
    (hcnt : ∀ t now n, L = .inDone t now n → n ≠ 0) :
    RL (upd loc w L) lock' clock val' timer' entered' := by
  have hfree : ∀ v, v ≠ w → (loc v).held = false := by
    intro v hv
    apply Classical.byContradiction
    intro e
    have := (l.held v).mp (by simpa using e)
    rcases hlock with h | h
    · rw [h] at this; cases this
    · rw [h] at this; exact hv (Option.some.inj this).symm
  refine ⟨?_, ?_, ?_, ?_, ?_, ?_, ?_⟩
  · intro t v
    by_cases e : v = w
    · subst e; rw [upd_same]; exact htw t
    · rw [upd_ne _ _ e, ht t v e]; exact l.run t v
  · intro v
    rw [hlock']
    by_cases e : v = w
    · subst e; rw [upd_same]; split <;> simp_all
    · rw [upd_ne _ _ e, hfree v e]
      split
      · simp; exact fun h => e h.symm
      · simp
  · intro v now n
    by_cases e : v = w
    · subst e; rw [upd_same]; exact hnow now n
    · rw [upd_ne _ _ e, he v e]; exact l.now v now n
  · intro v now hv
    by_cases e : v = w
    · subst e; rw [upd_same] at hv; exact hnp now hv
    · rw [upd_ne _ _ e] at hv
      have := hfree v e
      rw [hv] at this; cases this
  · intro v x hx
    by_cases e : v = w
    · subst e; exact hent x hx
    · rw [he v e] at hx; exact l.ent v x hx
  · intro v
    by_cases e : v = w
    · subst e; rw [upd_same]; exact hew
    · rw [upd_ne _ _ e, he v e]; exact l.early v
  · intro v t now n hv
    by_cases e : v = w
    · subst e; rw [upd_same] at hv; exact hcnt t now n hv
    · rw [upd_ne _ _ e] at hv; exact l.count v t now n hv

/-- One thread moves and the timers stay as they are. -/
theorem RL.move0 {loc : Nat → Loc} {lock lock' : Option Nat} {clock : Time} {val : Nat → Tv} {timer : Nat → TS}
    {entered : Nat → Option Time} (l : RL loc lock clock val timer entered) (w : Nat) (L : Loc)
    (hlock : lock = none ∨ lock = some w) (hlock' : lock' = if L.held then some w else none)
    (h1 : (loc w).timer? = none) (h2 : L.timer? = none) (h3 : L.early = (loc w).early)
    (hnow : ∀ now n, L = .timers now n → tcmp now clock ≤ 0 ∧ ∀ e, entered w = some e → tcmp e now ≤ 0)
    (hnp : ∀ now, L = .timers now 0 → ∀ t, (timer t).busy = .pending → tcmp (val t).timeout now ≤ 0) :
    RL (upd loc w L) lock' clock val timer entered := by
  refine l.move w L hlock hlock' (fun _ _ _ => Iff.rfl) ?_ (fun _ _ => rfl) ?_ (l.ent w) ?_ hnp ?_
  · intro t; rw [l.run t w, h1, h2]
  · rw [h3]; exact l.early w
  · rintro now n (h | ⟨t, h | h⟩)
    · exact hnow now n h
    · rw [h] at h2; cases h2
    · rw [h] at h2; cases h2
  · intro t now n h; rw [h] at h2; cases h2

/-- The runners a thread has taken stay the same. -/
theorem RR.move {queue : List Nat} {loc : Nat → Loc} {inUse rlive pend ralive : Nat → Bool}
    (r : RR queue (fun w => (loc w).rest) inUse rlive pend ralive) (w : Nat) (L : Loc) (h : L.rest = (loc w).rest) :
    RR queue (fun v => (upd loc w L v).rest) inUse rlive pend ralive := by
  have : (fun v => (upd loc w L v).rest) = (fun v => (loc v).rest) := by
    funext v
    by_cases e : v = w
    · subst e; rw [upd_same, h]
    · rw [upd_ne _ _ e]
  rw [this]
  exact r

/-- A thread takes the whole queue. -/
theorem RR.take {queue : List Nat} {loc : Nat → Loc} {inUse rlive pend ralive : Nat → Bool}
    (r : RR queue (fun w => (loc w).rest) inUse rlive pend ralive) (w : Nat) (L : Loc) (h0 : (loc w).rest = [])
    (h : L.rest = queue) : RR [] (fun v => (upd loc w L v).rest) inUse rlive pend ralive := by
  refine ⟨List.nodup_nil, ?_, ?_, ?_, ?_, r.lv, r.use, r.plive⟩
  · intro v
    by_cases e : v = w
    · subst e; simp only [upd_same, h]; exact r.nodupQ
    · simp only [upd_ne _ _ e]; exact r.nodup v
  · intro q v hq; cases hq
  · intro q v v' h1 h2
    by_cases e : v = w
    · by_cases e' : v' = w
      · rw [e, e']
      · subst e
        simp only [upd_same, h, upd_ne _ _ e'] at h1 h2
        exact absurd h2 (r.disjQ q v' h1)
    · by_cases e' : v' = w
      · subst e'
        simp only [upd_same, h, upd_ne _ _ e] at h1 h2
        exact absurd h1 (r.disjQ q v h2)
      · simp only [upd_ne _ _ e, upd_ne _ _ e'] at h1 h2
        exact r.disj q v v' h1 h2
  · intro q
    rw [r.pd q]
    constructor
    · rintro (hq | ⟨v, hq⟩)
      · exact Or.inr ⟨w, by simp only [upd_same, h]; exact hq⟩
      · refine Or.inr ⟨v, ?_⟩
        by_cases e : v = w
        · subst e; simp only [h0] at hq; cases hq
        · simp only [upd_ne _ _ e]; exact hq
    · rintro (hq | ⟨v, hq⟩)
      · cases hq
      · by_cases e : v = w
        · subst e; simp only [upd_same, h] at hq; exact Or.inl hq
        · simp only [upd_ne _ _ e] at hq; exact Or.inr ⟨v, hq⟩

/-- A thread calls the function of its first runner. -/
theorem RR.pop {queue : List Nat} {loc : Nat → Loc} {inUse rlive pend ralive : Nat → Bool}
    (x : RR queue (fun w => (loc w).rest) inUse rlive pend ralive) (w : Nat) (L : Loc) (r : Nat) (rest : List Nat)
    (h0 : (loc w).rest = r :: rest) (h : L.rest = rest) :
    RR queue (fun v => (upd loc w L v).rest) (upd inUse r false) rlive (upd pend r false) ralive := by
  have hn : (r :: rest).Nodup := h0 ▸ x.nodup w
  rw [List.nodup_cons] at hn
  have hw : r ∈ (loc w).rest := by rw [h0]; exact List.mem_cons_self
  refine ⟨x.nodupQ, ?_, ?_, ?_, ?_, x.lv, ?_, ?_⟩
  · intro v
    by_cases e : v = w
    · subst e; simp only [upd_same, h]; exact hn.2
    · simp only [upd_ne _ _ e]; exact x.nodup v
  · intro q v hq
    by_cases e : v = w
    · subst e; simp only [upd_same, h]
      intro hr; exact x.disjQ q v hq (by rw [h0]; exact List.mem_cons_of_mem _ hr)
    · simp only [upd_ne _ _ e]; exact x.disjQ q v hq
  · have sub : ∀ v q, q ∈ (upd loc w L v).rest → q ∈ (loc v).rest := by
      intro v q hq
      by_cases e : v = w
      · subst e; rw [upd_same, h] at hq; rw [h0]; exact List.mem_cons_of_mem _ hq
      · rw [upd_ne _ _ e] at hq; exact hq
    intro q v v' h1 h2
    exact x.disj q v v' (sub v q h1) (sub v' q h2)
  · intro q
    by_cases e : q = r
    · subst e
      rw [upd_same]
      simp only [Bool.false_eq_true, false_iff, not_or, not_exists]
      refine ⟨fun hq => x.disjQ q w hq hw, fun v hq => ?_⟩
      by_cases e : v = w
      · subst e; rw [upd_same, h] at hq; exact hn.1 hq
      · rw [upd_ne _ _ e] at hq; exact e (x.disj q v w hq hw)
    · rw [upd_ne _ _ e, x.pd q]
      constructor
      · rintro (hq | ⟨v, hq⟩)
        · exact Or.inl hq
        · refine Or.inr ⟨v, ?_⟩
          by_cases e' : v = w
          · subst e'; rw [upd_same, h]
            have hq : q ∈ (loc v).rest := hq
            rw [h0, List.mem_cons] at hq; exact hq.resolve_left e
          · rw [upd_ne _ _ e']; exact hq
      · rintro (hq | ⟨v, hq⟩)
        · exact Or.inl hq
        · refine Or.inr ⟨v, ?_⟩
          by_cases e' : v = w
          · subst e'; rw [upd_same, h] at hq; show q ∈ (loc v).rest; rw [h0]; exact List.mem_cons_of_mem _ hq
          · rw [upd_ne _ _ e'] at hq; exact hq
  · intro q hq
    by_cases e : q = r
    · subst e; rw [upd_same, upd_same]
    · rw [upd_ne _ _ e, upd_ne _ _ e]; exact x.use q hq
  · intro q hq
    by_cases e : q = r
    · subst e; rw [upd_same] at hq; cases hq
    · rw [upd_ne _ _ e] at hq; exact x.plive q hq

theorem enter_spec {s : Sel} {p : Spec} (x : R s p) {w : Nat} (hl : s.lock = none) (hw : s.loc w = .out) :
    R { s with lock := some w, queue := [], loc := upd s.loc w (.runners s.queue .before 0) }
      (p.after (.enter w) .silent) := by
  refine ⟨x.t, x.r.take w _ (by rw [hw]; rfl) rfl, ?_, x.clock⟩
  refine x.l.move w _ (Or.inl hl) rfl (fun _ _ _ => Iff.rfl) ?_ ?_ ?_ ?_ ?_ ?_ ?_
  · intro t; simp only [Spec.after]; rw [x.l.run t w, hw]; simp [Loc.timer?]
  · intro v e; simp only [Spec.after, upd_ne _ _ e]
  · simp [Spec.after, upd_same, Loc.early]
  · intro e he
    simp only [Spec.after, upd_same, Option.some.injEq] at he
    rw [← he]; exact tcmp_refl _
  · intro now n h; simp at h
  · intro now h; cases h
  · intro t now n h; cases h

theorem runnersRound_spec {s : Sel} {p : Spec} (x : R s p) {w : Nat} {ph : Phase} {count : Nat} {rest : List Nat}
    (hl : s.lock = some w) (hw : s.loc w = .runners rest ph count) :
    ∃ s' e, s.runnersRound w ph count rest = some (s', e) ∧ R s' (p.after (.go w) e) ∧ p.timerOk (.go w) e ∧ p.dueOk e
      ∧ p.runnerOk (.go w) e := by
  cases rest with
  | cons r rest =>
    have hpd : p.pend r = true := (x.r.pd r).mpr (Or.inr ⟨w, by simp only [hw, Loc.rest]; exact List.mem_cons_self⟩)
    have hlv := x.r.plive r hpd
    simp only [Sel.runnersRound, hlv, Bool.true_eq_false, if_false]
    refine ⟨_, _, rfl, ⟨x.t, ?_, ?_, x.clock⟩, trivial, trivial, ⟨rfl, hpd, by rw [← x.r.lv]; exact hlv⟩⟩
    · exact x.r.pop w _ r rest (by rw [hw]; rfl) rfl
    · refine x.l.move0 w _ (Or.inr hl) rfl (by rw [hw]; rfl) rfl ?_ ?_ ?_
      · rw [hw]; cases ph <;> rfl
      · intro now n h; cases h
      · intro now h; cases h
  | nil =>
    cases ph with
    | before =>
      simp only [Sel.runnersRound]
      refine ⟨_, _, rfl, ⟨x.t, ?_, ?_, x.clock⟩, trivial, trivial, trivial⟩
      · exact x.r.move w _ (by rw [hw]; rfl)
      · have hn : ∀ now n, Loc.timers s.clock count = .timers now n → now = p.clock := by
          intro now n h; injection h with h1 h2; rw [← h1, x.clock]
        refine x.l.move0 w _ (Or.inr hl) (by rw [hl]; rfl) (by rw [hw]; rfl) rfl (by rw [hw]; rfl) ?_ ?_
        · intro now n h
          rw [hn now n h]
          exact ⟨tcmp_refl _, x.l.ent w⟩
        · intro now h t ht
          rw [hn now 0 h]
          exact (x.t.tr t).due ht
    | after =>
      simp only [Sel.runnersRound]
      have he : p.entered w = none := by
        have := x.l.early w
        rw [hw] at this
        simp only [Loc.early, Bool.false_eq_true, false_iff, Classical.not_not] at this
        exact this
      refine ⟨_, _, rfl, ⟨x.t, ?_, ?_, x.clock⟩, trivial, ?_, trivial⟩
      · exact x.r.move w _ (by rw [hw]; rfl)
      · have : (p.after (.go w) (.leave w)).entered = p.entered := upd_self _ _ _ he
        rw [this]
        refine x.l.move0 w _ (Or.inr hl) rfl (by rw [hw]; rfl) rfl (by rw [hw]; rfl) ?_ ?_
        · intro now n h; cases h
        · intro now h; cases h
      · intro t time _ _ e h; rw [he] at h; cases h

/-- The end of a round of the loop for timers. -/
theorem finish_spec {s : Sel} {p : Spec} (x : RT s.heap s.live s.adds p.timer p.clock)
    (xr : RR s.queue (fun w => (s.loc w).rest) s.inUse s.rlive p.pend p.ralive)
    {lk : Option Nat} {val : Nat → Tv} (xl : RL s.loc lk p.clock val p.timer p.entered) (hc : s.clock = p.clock)
    {w t : Nat} {now : Time} {count : Nat} (hlk : lk = none ∨ lk = some w)
    (hl : s.lock = some w) (hb : (p.timer t).busy = .running w) (hcnt : count ≠ 0)
    (hrest : (s.loc w).rest = []) (hearly : (s.loc w).early = true)
    (hnow : tcmp now p.clock ≤ 0 ∧ ∀ e, p.entered w = some e → tcmp e now ≤ 0) :
    ∃ s', s.finish w t now count = some (s', .fin w t) ∧ R s' (p.afterEv (.fin w t)) := by
  have tr := x.tr t
  have lv : s.live t = true := tr.lv.mpr (Or.inr (by rw [hb]; simp))
  have nq : ¬ (p.timer t).queued := by simp [TS.queued, hb]
  have hnh : (s.heap.val t).inHeap = false := by
    apply Classical.byContradiction; intro e; exact nq ((tr.inHeap lv).mp (by simpa using e))
  have hnd : (s.heap.val t).done = false := by
    apply Classical.byContradiction; intro e
    have := (tr.done lv).mp (by simpa using e)
    rw [hb] at this; simp at this
  have htm := tr.time
  have hL : ∀ val', RL (upd s.loc w (.timers now count)) s.lock p.clock val' (upd p.timer t { p.timer t with busy := .idle })
      p.entered := by
    intro val'
    refine xl.move w _ hlk (by rw [hl]; rfl) ?_ ?_ (fun _ _ => rfl) ?_ (xl.ent w) ?_ ?_ ?_
    · intro q v hv
      by_cases e : q = t
      · subst e; rw [upd_same, hb]; simp; exact fun h => hv h.symm
      · rw [upd_ne _ _ e]
    · intro q
      by_cases e : q = t
      · subst e; rw [upd_same]; simp [Loc.timer?]
      · rw [upd_ne _ _ e, xl.run q w, (xl.run t w).mp hb]
        simp [Loc.timer?]; exact fun h => e h.symm
    · rw [← xl.early w, hearly]; simp [Loc.early]
    · rintro n2 n (h | ⟨q, h | h⟩)
      · injection h with h1 h2; rw [← h1]; exact hnow
      · cases h
      · cases h
    · intro n2 h; injection h with h1 h2; exact absurd h2 hcnt
    · intro q n2 n h; cases h
  have hRR : RR s.queue (fun v => (upd s.loc w (.timers now count) v).rest) s.inUse s.rlive p.pend p.ralive :=
    xr.move w _ (by rw [hrest]; rfl)
  unfold Sel.finish
  simp only [Sel.setTv, upd_same]
  by_cases hf : (s.heap.val t).freed = true
  · rw [if_pos hf]
    have hal := (tr.freed lv).mp hf
    have harm := tr.dead hal
    refine ⟨_, rfl, ⟨x.one t { s.heap.val t with inHandler := false } { p.timer t with busy := .idle } false rfl rfl
      (x.keep t _ _ ⟨fun e => absurd e (by simp [TS.queued, harm]), fun e => absurd e nq⟩ (fun e => absurd e nq)) ?_,
      hRR, hL _, hc⟩⟩
    constructor <;> simp_all [TS.queued]
  · rw [if_neg hf]
    have hal : (p.timer t).alive = true := by
      apply Classical.byContradiction; intro e; exact hf ((tr.freed lv).mpr (by simpa using e))
    by_cases hs : (s.heap.val t).stopped = true
    · rw [if_pos hs]
      have harm := (tr.stopped hal).mp hs
      refine ⟨_, rfl, ⟨x.one t { s.heap.val t with inHandler := false } { p.timer t with busy := .idle } (s.live t) rfl
        (upd_self _ _ _ rfl).symm
        (x.keep t _ _ ⟨fun e => absurd e (by simp [TS.queued, harm]), fun e => absurd e nq⟩ (fun e => absurd e nq)) ?_,
        hRR, hL _, hc⟩⟩
      constructor <;> simp_all [TS.queued]
    · rw [if_neg hs]
      have harm : (p.timer t).armed ≠ none := fun e => hs ((tr.stopped hal).mpr e)
      obtain ⟨h, e1, e2, e3⟩ := x.gain t { s.heap.val t with inHandler := false } { p.timer t with busy := .idle } nq
        (Or.inl ⟨harm, rfl⟩)
      simp only [Sel.setTv] at e1
      simp only [e1]
      refine ⟨_, rfl, ⟨x.one t _ { p.timer t with busy := .idle } (s.live t) e2 (upd_self _ _ _ rfl).symm e3 ?_,
        hRR, hL _, hc⟩⟩
      constructor <;> first | exact htm | simp_all [TS.queued]

/-- The timers that are queued. -/
theorem due_none {s : Sel} {p : Spec} (x : R s p) (e : s.heap.top = none) : ∀ t, ¬ (p.timer t).queued := by
  obtain ⟨l, i, -, m⟩ := x.t.heap
  intro t ht
  have := (m t).mpr ht
  rw [Inv.top_none i e] at this
  cases this

theorem due_some {s : Sel} {p : Spec} (x : R s p) {t : Nat} (e : s.heap.top = some t) : (p.timer t).queued
    ∧ ∀ q, (p.timer q).queued → tcmp (s.heap.val t).timeout (s.heap.val q).timeout ≤ 0 := by
  obtain ⟨l, i, -, m⟩ := x.t.heap
  obtain ⟨h1, h2⟩ := Inv.top_some i e
  exact ⟨(m t).mp h1, fun q hq => h2 q ((m q).mpr hq)⟩

theorem timersDone_spec {s : Sel} {p : Spec} (x : R s p) {w : Nat} {now : Time} {count : Nat}
    (hl : s.lock = some w) (hw : s.loc w = .timers now count)
    (hdue : ∀ t, s.heap.top = some t → tcmp now (s.heap.val t).timeout < 0) :
    ∃ s' e, s.timersDone w now count = some (s', e) ∧ R s' (p.after (.go w) e) ∧ p.timerOk (.go w) e ∧ p.dueOk e
      ∧ p.runnerOk (.go w) e := by
  have hnow := x.l.now w now count (Or.inl hw)
  have later : ∀ q, (p.timer q).queued → tcmp now (s.heap.val q).timeout < 0 := by
    intro q hq
    cases ht : s.heap.top with
    | none => exact absurd hq (due_none x ht q)
    | some t => exact tcmp_lt_of_lt_of_le (hdue t ht) ((due_some x ht).2 q hq)
  have hent : ∀ t time, (p.timer t).armed = some time → (p.timer t).busy = .idle → ∀ e, p.entered w = some e →
      tcmp e time < 0 := by
    intro t time h1 h2 e he
    have h3 := later t (Or.inl ⟨by rw [h1]; simp, h2⟩)
    rw [(x.t.tr t).time time h1] at h3
    exact tcmp_lt_of_le_of_lt (hnow.2 e he) h3
  have move : ∀ L : Loc, L = .waiting ∨ L = .out →
      RL (upd s.loc w L) none p.clock s.heap.val p.timer (upd p.entered w none) := by
    intro L hL
    have a1 : L.held = false := by rcases hL with rfl | rfl <;> rfl
    have a2 : L.timer? = none := by rcases hL with rfl | rfl <;> rfl
    have a3 : L.early = false := by rcases hL with rfl | rfl <;> rfl
    refine x.l.move w L (Or.inr hl) (by rw [a1]; rfl) (fun _ _ _ => Iff.rfl) ?_ ?_ ?_ ?_ ?_ ?_ ?_
    · intro t; rw [x.l.run t w, hw, a2]; rfl
    · intro v e; rw [upd_ne _ _ e]
    · rw [a3, upd_same]; simp
    · intro e h; rw [upd_same] at h; cases h
    · rintro n2 n (h | ⟨t, h | h⟩) <;> rcases hL with rfl | rfl <;> cases h
    · intro n2 h; rcases hL with rfl | rfl <;> cases h
    · intro t n2 n h; rcases hL with rfl | rfl <;> cases h
  unfold Sel.timersDone
  split
  · rename_i hcq
    refine ⟨_, _, rfl, ⟨x.t, x.r.move w _ (by rw [hw]; rfl), move _ (Or.inl rfl), x.clock⟩, trivial, ⟨?_, ?_, ?_⟩, trivial⟩
    · rw [← x.l.early w, hw]; rfl
    · intro t ht
      have h1 := later t (Or.inr ht)
      rw [hcq.1] at hw
      have h2 := x.l.nopend w now hw t ht
      rw [tcmp_lt] at h1; rw [tcmp_le] at h2; omega
    · intro t time h1 h2
      refine ⟨?_, hent t time h1 h2⟩
      have hq : (p.timer t).queued := Or.inl ⟨by rw [h1]; simp, h2⟩
      unfold Sel.absTime
      cases ht : s.heap.top with
      | none => exact absurd hq (due_none x ht t)
      | some q =>
        have := (due_some x ht).2 t hq
        rw [(x.t.tr t).time time h1] at this
        exact this
  · exact ⟨_, _, rfl, ⟨x.t, x.r.move w _ (by rw [hw]; rfl), move _ (Or.inr rfl), x.clock⟩, trivial, hent, trivial⟩

theorem timersRound_spec {s : Sel} {p : Spec} (x : R s p) {w : Nat} {now : Time} {count : Nat}
    (hl : s.lock = some w) (hw : s.loc w = .timers now count) :
    ∃ s' e, s.timersRound w now count = some (s', e) ∧ R s' (p.after (.go w) e) ∧ p.timerOk (.go w) e ∧ p.dueOk e
      ∧ p.runnerOk (.go w) e := by
  have hnow := x.l.now w now count (Or.inl hw)
  unfold Sel.timersRound
  cases ht : s.heap.top with
  | none =>
    simp only
    exact timersDone_spec x hl hw (fun t h => by rw [ht] at h; cases h)
  | some t =>
    obtain ⟨hq, hmin⟩ := due_some x ht
    have tr := x.t.tr t
    have lv : s.live t = true := by
      rw [tr.lv]
      rcases hq with ⟨h1, h2⟩ | h
      · left
        apply Classical.byContradiction; intro e; exact h1 (tr.dead (by simpa using e))
      · right; rw [h]; simp
    simp only [lv, Bool.true_eq_false, if_false]
    by_cases hd : tcmp now (s.heap.val t).timeout ≥ 0
    · rw [if_pos hd]
      have hd' := tcmp_ge.mp hd
      have mv : ∀ (ts : TS) (L : Loc) (val' : Nat → Tv), ts.busy = .running w → (L = .inHandler t now count ∨ L = .inDone t now (count + 1)) →
          RL (upd s.loc w L) none p.clock val' (upd p.timer t ts) p.entered := by
        intro ts L val' hts hL
        have a1 : L.held = false := by rcases hL with rfl | rfl <;> rfl
        have a2 : L.timer? = some t := by rcases hL with rfl | rfl <;> rfl
        have a3 : L.early = true := by rcases hL with rfl | rfl <;> rfl
        refine x.l.move w L (Or.inr hl) (by rw [a1]; rfl) ?_ ?_ (fun _ _ => rfl) ?_ (x.l.ent w) ?_ ?_ ?_
        · intro q v hv
          by_cases e : q = t
          · subst e
            rw [upd_same, hts]
            simp only [Busy.running.injEq]
            refine ⟨fun h => absurd h.symm hv, fun h => ?_⟩
            rcases hq with ⟨-, h2⟩ | h2 <;> rw [h] at h2 <;> cases h2
          · rw [upd_ne _ _ e]
        · intro q
          rw [a2]
          by_cases e : q = t
          · subst e; rw [upd_same, hts]; simp
          · rw [upd_ne _ _ e, x.l.run q w, hw]
            simp [Loc.timer?]; exact fun h => e h.symm
        · rw [a3, ← x.l.early w, hw]; simp [Loc.early]
        · rintro n2 n (h | ⟨q, h | h⟩)
          · rcases hL with rfl | rfl <;> cases h
          · rcases hL with rfl | rfl
            · injection h with _ h1; rw [← h1]; exact hnow
            · cases h
          · rcases hL with rfl | rfl
            · cases h
            · injection h with _ h1; rw [← h1]; exact hnow
        · intro n2 h; rcases hL with rfl | rfl <;> cases h
        · intro q n2 n h
          rcases hL with rfl | rfl
          · cases h
          · injection h; omega
      have rr : ∀ L : Loc, L.rest = [] → RR s.queue (fun v => (upd s.loc w L v).rest) s.inUse s.rlive p.pend p.ralive :=
        fun L h => x.r.move w L (by rw [h, hw]; rfl)
      rcases hq with ⟨harm, hidle⟩ | hpend
      · have hih : (s.heap.val t).inHandler = false := by
          apply Classical.byContradiction; intro e
          exact (tr.handler lv).mp (by simpa using e) hidle
        obtain ⟨h, e1, e2, e3⟩ := x.t.lose t (s.heap.val t) { p.timer t with armed := none, busy := .running w } rfl
          (Or.inl ⟨harm, hidle⟩) (by simp [TS.queued])
        rw [setTv_self] at e1
        simp only [e1, Sel.setTv, upd_same, upd_upd, e2, hih, Bool.false_eq_true, if_false]
        have hal : (p.timer t).alive = true := by
          apply Classical.byContradiction; intro e; exact harm (tr.dead (by simpa using e))
        refine ⟨_, _, rfl, ⟨x.t.one t _ { p.timer t with armed := none, busy := .running w } (s.live t) rfl
          (upd_self _ _ _ rfl).symm ?_ ?_, rr _ rfl, mv _ _ _ rfl (Or.inl rfl), x.clock⟩, ?_, trivial, trivial⟩
        · have := heap_reval e3 t { (s.heap.val t) with inHeap := false, stopped := true, inHandler := true }
            (by rw [e2, upd_same])
          simp only [e2, upd_upd] at this
          rw [lv] at *
          exact this
        · constructor <;> simp_all [TS.queued] <;> grind [tr.freed, tr.done]
        · obtain ⟨time, htime⟩ : ∃ time, (p.timer t).armed = some time := Option.ne_none_iff_exists'.mp harm
          have htv := tr.time time htime
          refine ⟨rfl, hal, hidle, time, htime, ?_, ?_⟩
          · rw [← htv]; exact tcmp_trans hd' hnow.1
          · intro q time' h1 h2
            have := hmin q (Or.inl ⟨by rw [h1]; simp, h2⟩)
            rw [htv, (x.t.tr q).time time' h1] at this
            exact this
      · have hih : (s.heap.val t).inHandler = true := (tr.handler lv).mpr (by rw [hpend]; simp)
        have hdn : (s.heap.val t).done = true := (tr.done lv).mpr (Or.inl hpend)
        obtain ⟨h, e1, e2, e3⟩ := x.t.lose t (s.heap.val t) { p.timer t with busy := .running w } rfl
          (Or.inr hpend) (by simp [TS.queued])
        rw [setTv_self] at e1
        simp only [e1, Sel.setTv, upd_same, upd_upd, e2, hih, if_true, Sel.afterHandler, hdn]
        refine ⟨_, _, rfl, ⟨x.t.one t _ { p.timer t with busy := .running w } (s.live t) rfl
          (upd_self _ _ _ rfl).symm ?_ ?_, rr _ rfl, mv _ _ _ rfl (Or.inr rfl), x.clock⟩, ⟨rfl, hpend⟩, trivial, trivial⟩
        · have := heap_reval e3 t { (s.heap.val t) with inHeap := false, stopped := true, done := false, inHandler := true }
            (by rw [e2, upd_same])
          simp only [e2, upd_upd] at this
          exact this
        · have harm := tr.unarmed hpend
          constructor <;> simp_all [TS.queued] <;> grind [tr.freed, tr.done]
    · rw [if_neg hd]
      exact timersDone_spec x hl hw (fun q h => by rw [ht] at h; rw [← Option.some.inj h]; omega)

theorem back_spec {s : Sel} {p : Spec} (x : R s p) {w : Nat} (hl : s.lock = none) (hc : s.can (.back w) = true) :
    ∃ s' e, s.back w = some (s', e) ∧ R s' (p.after (.back w) e) ∧ p.timerOk (.back w) e ∧ p.dueOk e
      ∧ p.runnerOk (.back w) e := by
  unfold Sel.back
  simp only
  cases hw : s.loc w with
  | out => simp [Sel.can, hw] at hc
  | runners => simp [Sel.can, hw] at hc
  | timers => simp [Sel.can, hw] at hc
  | inRunner r rest ph count =>
    refine ⟨_, _, rfl, ⟨x.t, x.r.move w _ (by rw [hw]; rfl), ?_, x.clock⟩, trivial, trivial, trivial⟩
    refine x.l.move0 w _ (Or.inl hl) rfl (by rw [hw]; rfl) rfl ?_ ?_ ?_
    · rw [hw]; cases ph <;> rfl
    · intro now n h; cases h
    · intro now h; cases h
  | waiting =>
    refine ⟨_, _, rfl, ⟨x.t, x.r.take w _ (by rw [hw]; rfl) rfl, ?_, x.clock⟩, trivial, trivial, trivial⟩
    refine x.l.move0 w _ (Or.inl hl) rfl (by rw [hw]; rfl) rfl (by rw [hw]; rfl) ?_ ?_
    · intro now n h; cases h
    · intro now h; cases h
  | inHandler t now count =>
    have hb := (x.l.run t w).mpr (by rw [hw]; rfl)
    have lv : s.live t = true := (x.t.tr t).lv.mpr (Or.inr (by rw [hb]; simp))
    have hd : (s.heap.val t).done = false := by
      apply Classical.byContradiction; intro e
      have := ((x.t.tr t).done lv).mp (by simpa using e)
      rw [hb] at this; simp at this
    simp only [lv, Bool.true_eq_false, if_false, Sel.afterHandler, hd, Bool.false_eq_true]
    obtain ⟨s', e1, e2⟩ := finish_spec (s := { s with lock := some w }) (t := t) (w := w) (count := count + 1) (now := now)
      x.t x.r x.l x.clock (Or.inl hl) rfl hb (by omega) (by simp only [hw]; rfl) (by simp only [hw]; rfl)
      (x.l.now w now count (Or.inr ⟨t, Or.inl hw⟩))
    exact ⟨s', _, e1, e2, ⟨rfl, hb⟩, trivial, trivial⟩
  | inDone t now count =>
    have hb := (x.l.run t w).mpr (by rw [hw]; rfl)
    have lv : s.live t = true := (x.t.tr t).lv.mpr (Or.inr (by rw [hb]; simp))
    simp only [lv, Bool.true_eq_false, if_false]
    obtain ⟨s', e1, e2⟩ := finish_spec (s := { s with lock := some w }) (t := t) (w := w) (count := count) (now := now)
      x.t x.r x.l x.clock (Or.inl hl) rfl hb (x.l.count w t now count hw) (by simp only [hw]; rfl) (by simp only [hw]; rfl)
      (x.l.now w now count (Or.inr ⟨t, Or.inr hw⟩))
    exact ⟨s', _, e1, e2, ⟨rfl, hb⟩, trivial, trivial⟩

theorem go_spec {s : Sel} {p : Spec} (x : R s p) {w : Nat} (hl : s.lock = some w) :
    ∃ s' e, s.go w = some (s', e) ∧ R s' (p.after (.go w) e) ∧ p.timerOk (.go w) e ∧ p.dueOk e
      ∧ p.runnerOk (.go w) e := by
  have hh := (x.l.held w).mpr hl
  unfold Sel.go
  cases hw : s.loc w with
  | runners rest ph count => exact runnersRound_spec x hl hw
  | timers now count => exact timersRound_spec x hl hw
  | _ => rw [hw] at hh; cases hh

theorem tick_spec {s : Sel} {p : Spec} (x : R s p) {t : Time} (h : tcmp s.clock t ≤ 0) :
    R { s with clock := t } (p.after (.tick t) .silent) := by
  rw [x.clock] at h
  refine ⟨⟨x.t.heap, fun q => ?_⟩, x.r, ⟨x.l.run, x.l.held, ?_, x.l.nopend, ?_, x.l.early, x.l.count⟩, rfl⟩
  · have tr := x.t.tr q
    exact ⟨tr.lv, tr.dead, tr.inHeap, tr.stopped, tr.freed, tr.handler, tr.done, tr.time,
      fun hq => tcmp_trans (tr.due hq) h, tr.unarmed⟩
  · intro w now n hw
    obtain ⟨h1, h2⟩ := x.l.now w now n hw
    exact ⟨tcmp_trans h1 h, h2⟩
  · intro w e he; exact tcmp_trans (x.l.ent w e he) h

/-- Every step that can happen and is allowed is one the account allows. -/
theorem step_spec {s : Sel} {p : Spec} (x : R s p) {a : Act} (hc : s.can a = true) (ha : p.allowed a) :
    ∃ s' e, s.step a = some (s', e) ∧ R s' (p.after a e) ∧ p.timerOk a e ∧ p.dueOk e ∧ p.runnerOk a e := by
  cases a with
  | tick t =>
    simp only [Sel.can, decide_eq_true_eq] at hc
    exact ⟨_, _, rfl, tick_spec x hc, trivial, trivial, trivial⟩
  | allocTimer t =>
    simp only [Sel.can, Bool.and_eq_true, decide_eq_true_eq, Bool.not_eq_true'] at hc
    exact ⟨_, _, rfl, allocTimer_spec x hc.1 hc.2, trivial, trivial, trivial⟩
  | start t time =>
    simp only [Sel.can, decide_eq_true_eq] at hc
    obtain ⟨s', n, e1, e2, e3⟩ := start_spec x hc ha time
    have lv : s.live t = true := (x.t.tr t).lv.mpr (Or.inl ha)
    exact ⟨s', .ret n, by simp only [Sel.step, lv, if_true, e1, Option.map_some], e2, e3, trivial, trivial⟩
  | stop t =>
    simp only [Sel.can, decide_eq_true_eq] at hc
    obtain ⟨s', n, e1, e2, e3⟩ := stop_spec x hc ha
    have lv : s.live t = true := (x.t.tr t).lv.mpr (Or.inl ha)
    exact ⟨s', .ret n, by simp only [Sel.step, lv, if_true, e1, Option.map_some], e2, e3, trivial, trivial⟩
  | stopDone t =>
    simp only [Sel.can, decide_eq_true_eq] at hc
    obtain ⟨s', n, e1, e2, e3⟩ := stopDone_spec x hc ha
    have lv : s.live t = true := (x.t.tr t).lv.mpr (Or.inl ha)
    exact ⟨s', .ret n, by simp only [Sel.step, lv, if_true, e1, Option.map_some], e2, e3, trivial, trivial⟩
  | free t =>
    simp only [Sel.can, decide_eq_true_eq] at hc
    obtain ⟨s', e1, e2⟩ := free_spec x hc ha
    have lv : s.live t = true := (x.t.tr t).lv.mpr (Or.inl ha)
    exact ⟨s', .ret 0, by simp only [Sel.step, lv, if_true, e1, Option.map_some], e2, rfl, trivial, trivial⟩
  | allocRunner r =>
    simp only [Sel.can, Bool.and_eq_true, decide_eq_true_eq, Bool.not_eq_true'] at hc
    exact ⟨_, _, rfl, allocRunner_spec x hc.2, trivial, trivial, trivial⟩
  | run r =>
    obtain ⟨e2, e3⟩ := runRunner_spec x ha
    have lv : s.rlive r = true := by rw [x.r.lv]; exact ha
    exact ⟨_, _, by simp only [Sel.step, lv, if_true], e2, trivial, trivial, e3⟩
  | freeRunner r =>
    obtain ⟨e2, e3⟩ := freeRunner_spec x ha
    have lv : s.rlive r = true := by rw [x.r.lv]; exact ha
    exact ⟨_, _, by simp only [Sel.step, lv, if_true], e2, trivial, trivial, e3⟩
  | enter w =>
    simp only [Sel.can, Bool.and_eq_true, decide_eq_true_eq] at hc
    exact ⟨_, _, rfl, enter_spec x hc.1 hc.2, trivial, trivial, trivial⟩
  | go w =>
    simp only [Sel.can, decide_eq_true_eq] at hc
    exact go_spec x hc
  | back w =>
    have hl : s.lock = none := by
      simp only [Sel.can, Bool.and_eq_true, decide_eq_true_eq] at hc; exact hc.1
    exact back_spec x hl hc

theorem Run.r {s : Sel} {p : Spec} (h : Run s p) : R s p := by
  induction h with
  | init => exact R.init ..
  | step _ hc ha he ih =>
    obtain ⟨s2, e2, h1, h2, -⟩ := step_spec ih hc ha
    rw [he] at h1
    have := Option.some.inj h1
    simp only [Prod.mk.injEq] at this
    rw [this.1, this.2]
    exact h2

end Gensio.Sel
