import Verif.Lemmas.Selector

/-!
# Lemmas about the selector: stopping and freeing timers, and runners
-/

namespace Gensio.Sel

open Gensio.Heap (Heap upd Inv)

/-- `sel_stop_timer_i`, when the timer is queued or not. -/
theorem stopI_spec {s : Sel} {timer : Nat → TS} {clock : Time} (x : RT s.heap s.live s.adds timer clock) {t : Nat}
    (lv : s.live t = true) (ts : TS) (hts : ¬ ts.queued) :
    ∃ h, s.stopI t = some ({ s with heap := h }, if (s.heap.val t).stopped then eTimedOut else 0)
      ∧ h.val = upd s.heap.val t { s.heap.val t with inHeap := false, stopped := true }
      ∧ ∃ l, Inv kcmp h l ∧ l.length ≤ s.adds ∧ ∀ q, q ∈ l ↔ (upd timer t ts q).queued := by
  have tr := x.tr t
  unfold Sel.stopI
  by_cases q : (timer t).queued
  · obtain ⟨h, e1, e2, e3⟩ := x.lose t (s.heap.val t) ts rfl q hts
    rw [setTv_self] at e1
    simp only [if_pos ((tr.inHeap lv).mpr q), e1]
    refine ⟨_, rfl, ?_, heap_reval e3 t _ rfl⟩
    simp only [e2, upd_upd, upd_same]
  · have nh : ¬ (s.heap.val t).inHeap = true := fun e => q ((tr.inHeap lv).mp e)
    simp only [if_neg nh]
    refine ⟨_, rfl, ?_, x.keep t _ ts ⟨fun e => absurd e hts, fun e => absurd e q⟩ (fun e => absurd e q)⟩
    simp only [Bool.not_eq_true] at nh
    simp only [← nh]

theorem stop_spec {s : Sel} {p : Spec} (x : R s p) (hl : s.lock = none) {t : Nat} (ha : (p.timer t).alive = true) :
    ∃ s' n, s.stopI t = some (s', n) ∧ R s' (p.after (.stop t) (.ret n)) ∧ p.timerOk (.stop t) (.ret n) := by
  have tr := x.t.tr t
  have lv : s.live t = true := tr.lv.mpr (Or.inl ha)
  have xl := x.l; rw [hl] at xl
  have hq : ¬ ({ p.timer t with armed := none, busy := (p.timer t).busy.stop } : TS).queued := by
    simp only [TS.queued]; cases (p.timer t).busy <;> simp [Busy.stop]
  obtain ⟨h, e1, e2, e3⟩ := stopI_spec x.t lv _ hq
  refine ⟨_, _, e1, ⟨x.t.one t _ _ (s.live t) e2 (upd_self _ _ _ rfl).symm e3 ?_, x.r, ?_, x.clock⟩, ?_⟩
  · cases hb : (p.timer t).busy <;> constructor <;> simp_all [TS.queued, Busy.stop] <;>
      grind [tr.freed, tr.handler, tr.done]
  · simp only [hl]
    refine xl.api1 t _ (fun w => ?_)
    cases (p.timer t).busy <;> simp [Busy.stop]
  · have := tr.stopped ha
    simp only [Spec.timerOk]
    by_cases hs : (s.heap.val t).stopped = true
    · rw [if_pos hs]; exact Or.inl ⟨this.mp hs, rfl⟩
    · rw [if_neg hs]; exact Or.inr ⟨fun e => hs (this.mpr e), rfl⟩

theorem free_spec {s : Sel} {p : Spec} (x : R s p) (hl : s.lock = none) {t : Nat} (ha : (p.timer t).alive = true) :
    ∃ s', s.freeTimer t = some s' ∧ R s' (p.after (.free t) (.ret 0)) := by
  have tr := x.t.tr t
  have lv : s.live t = true := tr.lv.mpr (Or.inl ha)
  have xl := x.l; rw [hl] at xl
  have hq : ¬ ({ alive := false, armed := none, busy := (p.timer t).busy.stop } : TS).queued := by
    simp only [TS.queued]; cases (p.timer t).busy <;> simp [Busy.stop]
  have hlock : ∀ val', RL s.loc s.lock p.clock val' (upd p.timer t
      { alive := false, armed := none, busy := (p.timer t).busy.stop }) p.entered := by
    intro val'
    rw [hl]
    refine xl.api1 t _ (fun w => ?_)
    cases (p.timer t).busy <;> simp [Busy.stop]
  obtain ⟨h, b, e1, e2, e4⟩ : ∃ h b, (if (s.heap.val t).inHeap then (s.stopI t).map (·.1) else some s)
      = some { s with heap := h } ∧ h.val = upd s.heap.val t { s.heap.val t with inHeap := false, stopped := b }
      ∧ ∃ l, Inv kcmp h l ∧ l.length ≤ s.adds ∧ ∀ q, q ∈ l ↔ (upd p.timer t
        { alive := false, armed := none, busy := (p.timer t).busy.stop } q).queued := by
    by_cases q : (s.heap.val t).inHeap = true
    · obtain ⟨h, e1, e2, e3⟩ := stopI_spec x.t lv _ hq
      rw [if_pos q, e1]
      exact ⟨h, true, rfl, e2, e3⟩
    · rw [if_neg q]
      have nq : ¬ (p.timer t).queued := fun e => q ((tr.inHeap lv).mpr e)
      have hk := x.t.keep t (s.heap.val t) _ ⟨fun e => absurd e hq, fun e => absurd e nq⟩ (fun e => absurd e nq)
      rw [upd_self _ _ _ rfl] at hk
      refine ⟨s.heap, (s.heap.val t).stopped, rfl, ?_, hk⟩
      simp only [Bool.not_eq_true] at q
      rw [← q]
      exact (upd_self _ _ _ rfl).symm
  unfold Sel.freeTimer
  simp only [e1]
  have hv : h.val t = { s.heap.val t with inHeap := false, stopped := b } := by rw [e2, upd_same]
  have key : ∀ lv', (lv' = true ↔ (p.timer t).busy ≠ .idle) →
      R { s with heap := { h with val := upd h.val t { s.heap.val t with inHeap := false, stopped := b, freed := true } },
                 live := upd s.live t lv' } (p.after (.free t) (.ret 0)) := by
    intro lv' hlv
    refine ⟨x.t.one t { s.heap.val t with inHeap := false, stopped := b, freed := true } _ lv' ?_ rfl
      (heap_reval e4 t _ (by rw [hv])) ?_, x.r, hlock _, x.clock⟩
    · simp only [e2, upd_upd]
    · cases hb : (p.timer t).busy <;> constructor <;> simp_all [TS.queued, Busy.stop] <;>
        grind [tr.freed, tr.handler, tr.done]
  simp only [Sel.setTv, upd_same, hv]
  split
  · rename_i hx
    refine ⟨_, rfl, ?_⟩
    have := key true (by simp [(tr.handler lv).mp hx])
    rw [upd_self _ _ _ lv] at this
    exact this
  · rename_i hx
    refine ⟨_, rfl, ?_⟩
    have := key false (by
      have : (p.timer t).busy = .idle := by
        apply Classical.byContradiction; intro e; exact hx ((tr.handler lv).mpr e)
      simp [this])
    exact this

theorem stopDone_spec {s : Sel} {p : Spec} (x : R s p) (hl : s.lock = none) {t : Nat} (ha : (p.timer t).alive = true) :
    ∃ s' n, s.stopTimerDone t = some (s', n) ∧ R s' (p.after (.stopDone t) (.ret n))
      ∧ p.timerOk (.stopDone t) (.ret n) := by
  have tr := x.t.tr t
  have lv : s.live t = true := tr.lv.mpr (Or.inl ha)
  have xl := x.l; rw [hl] at xl
  unfold Sel.stopTimerDone
  by_cases d : (s.heap.val t).done = true
  · rw [if_pos d]
    exact ⟨s, eBusy, rfl, x, Or.inr (Or.inl ⟨(tr.done lv).mp d, rfl⟩)⟩
  · rw [if_neg d]
    have nd : (p.timer t).busy ≠ .pending ∧ (p.timer t).busy ≠ .stuck := by
      rw [tr.done lv, not_or] at d; exact d
    by_cases st : ((s.heap.val t).stopped || (s.heap.val t).inHandler) = true
    · rw [if_pos st]
      refine ⟨s, eTimedOut, rfl, x, Or.inr (Or.inr ⟨nd.1, nd.2, ?_, rfl⟩)⟩
      rw [Bool.or_eq_true] at st
      exact st.imp (tr.stopped ha).mp (tr.handler lv).mp
    · rw [if_neg st]
      simp only [Bool.or_eq_true, not_or] at st
      have harm : (p.timer t).armed ≠ none := fun e => st.1 ((tr.stopped ha).mpr e)
      have hidle : (p.timer t).busy = .idle := by
        apply Classical.byContradiction; intro e; exact st.2 ((tr.handler lv).mpr e)
      have hq : (p.timer t).queued := Or.inl ⟨harm, hidle⟩
      have hin := (tr.inHeap lv).mpr hq
      let v0 : Tv := { s.heap.val t with stopped := true, done := true, inHandler := true }
      -- without the timer
      obtain ⟨h, e1, e2, e3⟩ := x.t.lose t v0 { p.timer t with armed := none, busy := .stuck } rfl hq
        (by simp [TS.queued])
      have hR1 : ∃ l, Inv kcmp h l ∧ l.length ≤ s.adds
          ∧ ∀ q, q ∈ l ↔ (upd p.timer t { p.timer t with armed := none, busy := .stuck } q).queued := e3
      have hin0 : ((s.setTv t v0).heap.val t).inHeap = true := by simp only [Sel.setTv, upd_same, v0]; exact hin
      -- and with it again
      obtain ⟨l, i, hll, m⟩ := hR1
      have hnl : t ∉ l := by rw [m t, upd_same]; simp [TS.queued]
      obtain ⟨h2, f1, f2, f3⟩ := heapAdd_spec (s := ({ s with heap := h } : Sel).setTv t { h.val t with timeout := s.clock })
        (l := l) (t := t) (Inv.reval i _ (fun p hp => by rw [upd_ne]; rintro rfl; exact hnl hp)) hll hnl
      have hv0 : h.val t = { v0 with inHeap := false } := by rw [e2, upd_same]
      refine ⟨{ s with heap := h2, adds := s.adds + 1 }, 0, ?_, ?_, Or.inl ⟨harm, hidle, rfl⟩⟩
      · show (match (if ((s.setTv t v0).heap.val t).inHeap = true then (s.setTv t v0).heapRemove t else some (s.setTv t v0)) with
          | none => none
          | some s => _) = _
        rw [if_pos hin0, e1]
        simp only [f1]
        rfl
      · have hval : h2.val = upd s.heap.val t { v0 with timeout := s.clock, inHeap := true } := by
          rw [f3]
          simp only [Sel.setTv, upd_same, upd_upd, e2]
        have ht : p.after (.stopDone t) (.ret 0) = p.setT t { p.timer t with armed := none, busy := .pending } := rfl
        rw [ht]
        refine ⟨x.t.one t _ { p.timer t with armed := none, busy := .pending } (s.live t) hval (upd_self _ _ _ rfl).symm
          ⟨t :: l, f2, by simp; exact hll, fun q => ?_⟩ ?_, x.r, ?_, x.clock⟩
        · rw [List.mem_cons, m q]
          by_cases e : q = t
          · subst e; simp [upd_same, TS.queued]
          · simp [upd_ne _ _ e, e]
        · have := x.clock
          have hrefl : tcmp p.clock p.clock ≤ 0 := by simp [tcmp, Heap.cmpTimeval]
          constructor <;> simp_all [TS.queued, v0] <;> grind [tr.freed, tr.handler, tr.done]
        · simp only [hl]
          refine xl.api1 t _ (fun w => ?_)
          simp [hidle]

theorem allocTimer_spec {s : Sel} {p : Spec} (x : R s p) (hl : s.lock = none) {t : Nat} (hn : s.live t = false) :
    R (s.allocTimer t) (p.after (.allocTimer t) .silent) := by
  have tr := x.t.tr t
  have xl := x.l; rw [hl] at xl
  have hb : (p.timer t).busy = .idle := by
    apply Classical.byContradiction; intro e; rw [tr.lv.mpr (Or.inr e)] at hn; cases hn
  have hnq : ¬ (p.timer t).queued := by
    have : (p.timer t).alive = false := by
      apply Classical.byContradiction; intro e; rw [tr.lv.mpr (Or.inl (by simpa using e))] at hn; cases hn
    simp [TS.queued, hb, tr.dead this]
  refine ⟨x.t.one t { stopped := true } { alive := true } true rfl rfl
    (x.t.keep t _ _ ⟨fun e => absurd e (by simp [TS.queued]), fun e => absurd e hnq⟩ (fun e => absurd e hnq)) ?_, x.r, ?_, x.clock⟩
  · constructor <;> simp [TS.queued]
  · simp only [Sel.allocTimer, Sel.setTv, hl]
    exact xl.api1 t _ (fun w => by simp [hb])

/-! ## Runners -/

theorem runRunner_spec {s : Sel} {p : Spec} (x : R s p) {r : Nat} (ha : p.ralive r = true) :
    R (s.runRunner r).1 (p.after (.run r) (.ret (s.runRunner r).2)) ∧ p.runnerOk (.run r) (.ret (s.runRunner r).2) := by
  have hu := x.r.use r (by rw [x.r.lv]; exact ha)
  unfold Sel.runRunner
  split
  · rename_i h
    rw [hu] at h
    exact ⟨x, Or.inl ⟨h, rfl⟩⟩
  · rename_i h
    rw [hu, Bool.not_eq_true] at h
    refine ⟨⟨x.t, ?_, x.l, x.clock⟩, Or.inr ⟨h, rfl⟩⟩
    have hn : ¬ (r ∈ s.queue ∨ ∃ w, r ∈ (s.loc w).rest) := fun e => by rw [(x.r.pd r).mpr e] at h; cases h
    rw [not_or] at hn
    have hn2 : ∀ w, r ∉ (s.loc w).rest := fun w e => hn.2 ⟨w, e⟩
    show RR (s.queue ++ [r]) _ (upd s.inUse r true) s.rlive (upd p.pend r true) p.ralive
    refine ⟨?_, x.r.nodup, ?_, x.r.disj, ?_, x.r.lv, ?_, ?_⟩
    · rw [List.nodup_append]
      refine ⟨x.r.nodupQ, by simp, ?_⟩
      intro a h1 b hb e; simp at hb; subst hb; subst e; exact hn.1 h1
    · intro q w hq
      rw [List.mem_append] at hq
      rcases hq with hq | hq
      · exact x.r.disjQ q w hq
      · simp at hq; subst hq; exact hn2 w
    · intro q
      by_cases e : q = r
      · subst e; simp [upd_same]
      · rw [upd_ne _ _ e, x.r.pd q]; simp [e]
    · intro q hq
      by_cases e : q = r
      · subst e; rw [upd_same, upd_same]
      · rw [upd_ne _ _ e, upd_ne _ _ e]; exact x.r.use q hq
    · intro q hq
      by_cases e : q = r
      · subst e; rw [x.r.lv]; exact ha
      · rw [upd_ne _ _ e] at hq; exact x.r.plive q hq

theorem freeRunner_spec {s : Sel} {p : Spec} (x : R s p) {r : Nat} (ha : p.ralive r = true) :
    R (s.freeRunner r).1 (p.after (.freeRunner r) (.ret (s.freeRunner r).2))
      ∧ p.runnerOk (.freeRunner r) (.ret (s.freeRunner r).2) := by
  have hu := x.r.use r (by rw [x.r.lv]; exact ha)
  unfold Sel.freeRunner
  split
  · rename_i h
    rw [hu] at h
    exact ⟨x, Or.inl ⟨h, rfl⟩⟩
  · rename_i h
    rw [hu, Bool.not_eq_true] at h
    refine ⟨⟨x.t, ?_, x.l, x.clock⟩, Or.inr ⟨h, rfl⟩⟩
    show RR s.queue _ s.inUse (upd s.rlive r false) p.pend (upd p.ralive r false)
    refine ⟨x.r.nodupQ, x.r.nodup, x.r.disjQ, x.r.disj, x.r.pd, by rw [x.r.lv], ?_, ?_⟩
    · intro q hq
      by_cases e : q = r
      · subst e; rw [upd_same] at hq; cases hq
      · rw [upd_ne _ _ e] at hq; exact x.r.use q hq
    · intro q hq
      by_cases e : q = r
      · subst e; rw [h] at hq; cases hq
      · rw [upd_ne _ _ e]; exact x.r.plive q hq

theorem allocRunner_spec {s : Sel} {p : Spec} (x : R s p) {r : Nat} (hn : s.rlive r = false) :
    R { s with rlive := upd s.rlive r true, inUse := upd s.inUse r false } (p.after (.allocRunner r) .silent) := by
  refine ⟨x.t, ?_, x.l, x.clock⟩
  have hp : p.pend r = false := by
    apply Classical.byContradiction; intro e; rw [x.r.plive r (by simpa using e)] at hn; cases hn
  show RR s.queue _ (upd s.inUse r false) (upd s.rlive r true) (upd p.pend r false) (upd p.ralive r true)
  rw [upd_self _ _ _ hp]
  refine ⟨x.r.nodupQ, x.r.nodup, x.r.disjQ, x.r.disj, x.r.pd, by rw [x.r.lv], ?_, ?_⟩
  · intro q hq
    by_cases e : q = r
    · subst e; rw [upd_same, hp]
    · rw [upd_ne _ _ e] at hq ⊢; exact x.r.use q hq
  · intro q hq
    by_cases e : q = r
    · subst e; rw [upd_same]
    · rw [upd_ne _ _ e]; exact x.r.plive q hq

end Gensio.Sel
