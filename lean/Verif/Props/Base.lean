import Verif.Lemmas.BaseStep

/-!
# Opening, closing and releasing a base gensio: C28, C29, C30

The theorems are about every run of `Verif.Model.Base`, that is, every interleaving of user calls, lower layer callbacks,
deferred operations, timers and filter calls, for every answer of filter and lower layer.  A run is *clean* when it keeps
`Pre`, `Post` and `ll_close` does not fail; what happens otherwise is shown by the theorems that end in `_violated`.
-/

namespace Gensio.Base

/-! ## Runs -/

/-- The states of every run. -/
inductive Reach (d : Int) : St → Prop
  | init : Reach d (init d)
  | step {s s' : St} {e : Ev} : Reach d s → En s e → exec e s = some s' → Reach d s'

/-- The states of every clean run. -/
inductive Clean (d : Int) : St → Prop
  | init : Clean d (init d)
  | step {s s' : St} {e : Ev} : Clean d s → En s e → e.clOk = true → Pre s e → exec e s = some s' → Post s' e → Clean d s'

theorem Clean.inv {d : Int} {s : St} (h : Clean d s) : Inv s := by
  induction h with
  | init => exact init_inv d
  | step _ h1 h2 h3 h4 h5 ih =>
    obtain ⟨s', e, g⟩ := step_inv ih h1 h2 h3
    rw [h4] at e
    cases e
    exact g h5

instance (s : St) (e : Ev) : Decidable (En s e) := by cases e <;> (unfold En; infer_instance)
instance (s : St) (e : Ev) : Decidable (Pre s e) := by cases e <;> (unfold Pre; infer_instance)
instance (s : St) (e : Ev) : Decidable (Post s e) := by cases e <;> (unfold Post; infer_instance)

/-- A run, for examples. -/
def play : List Ev → St → Option St
  | [], s => some s
  | e :: l, s => if En s e then (exec e s).bind (play l) else none

/-- A clean run, for examples. -/
def cplay : List Ev → St → Option St
  | [], s => some s
  | e :: l, s =>
    if En s e ∧ e.clOk = true ∧ Pre s e then (exec e s).bind (fun s' => if Post s' e then cplay l s' else none) else none

theorem play_reach {d : Int} {l : List Ev} {s s' : St} (h : Reach d s) (e : play l s = some s') : Reach d s' := by
  induction l generalizing s with
  | nil => cases e; exact h
  | cons x l ih =>
    rw [play] at e
    split at e
    · rename_i h1
      obtain ⟨s1, h2, h3⟩ := Option.bind_eq_some_iff.1 e
      exact ih (h.step h1 h2) h3
    · cases e

theorem cplay_clean {d : Int} {l : List Ev} {s s' : St} (h : Clean d s) (e : cplay l s = some s') : Clean d s' := by
  induction l generalizing s with
  | nil => cases e; exact h
  | cons x l ih =>
    rw [cplay] at e
    split at e
    · rename_i h1
      obtain ⟨s1, h2, h3⟩ := Option.bind_eq_some_iff.1 e
      split at h3
      · rename_i h4
        exact ih (h.step h1.1 h1.2.1 h1.2.2 h2 h4) h3
      · cases h3
    · cases e

theorem Clean.reach {d : Int} {s : St} (h : Clean d s) : Reach d s := by
  induction h with
  | init => exact .init
  | step _ h1 _ _ h2 _ ih => exact ih.step h1 h2

/-- A fact about the end of a run. -/
theorem reach_of {d : Int} {P : St → Bool} (l : List Ev) (h : (play l (init d)).any P = true) : ∃ s, Reach d s ∧ P s = true := by
  rw [Option.any_eq_true] at h
  obtain ⟨s, e, h⟩ := h
  exact ⟨s, play_reach .init e, h⟩

theorem clean_of {d : Int} {P : St → Bool} (l : List Ev) (h : (cplay l (init d)).any P = true) : ∃ s, Clean d s ∧ P s = true := by
  rw [Option.any_eq_true] at h
  obtain ⟨s, e, h⟩ := h
  exact ⟨s, cplay_clean .init e, h⟩

/-- Answers by number, 0 if not given. -/
def ans (l : List (Nat × Nat)) : Ans := { n := fun k => (l.lookup k).getD 0 }

/-- A run from closed to open, the lower layer answering later. -/
def opening : List Ev := [.open_ (ans [(1, 11)]), .llOpenDone {} 0, .deferred {}, .cont {} 0 0 false]

/-- A run from open to closed. -/
def closing : List Ev := [.close {}, .llCloseDone, .deferred {}, .cont {} 0 0 false, .cont {} 0 0 false]

/-- Nothing goes on: no thread, no deferred operation, no timer, nothing to come from the lower layer. -/
def idle (s : St) : Bool :=
  s.th.isEmpty && !s.dPend && !s.tm.inHeap && !s.dtm.inHeap && (s.ll = .closed || s.ll = .opn)

/-! ## Histories -/

theorem OpenGood.cb {p q : List TEv} {i e : Nat} (h : OpenGood (p ++ .openCb i e :: q)) :
    .openOk i ∈ q ∧ ∀ e', .openCb i e' ∉ q := by
  induction p with
  | nil => exact ⟨h.1, h.2.1⟩
  | cons x p ih =>
    cases x with
    | openOk j => exact ih h.2.2.2
    | openCb j e' => exact ih h.2.2.2
    | _ => exact ih h

theorem OpenGood.pend {p q : List TEv} {i : Nat} (h : OpenGood (p ++ .openOk i :: q)) (h1 : ∀ e, .openCb i e ∉ p)
    (h2 : ∀ j, .closeOk j ∉ p) (h3 : .free ∉ p) : pendOpen (p ++ .openOk i :: q) = some i := by
  induction p with
  | nil => rfl
  | cons x p ih =>
    have g1 : ∀ e, .openCb i e ∉ p := fun e he => h1 e (by simp [he])
    have g2 : ∀ j, .closeOk j ∉ p := fun e he => h2 e (by simp [he])
    have g3 : .free ∉ p := fun he => h3 (by simp [he])
    cases x with
    | openOk j =>
      have := ih h.2.2.2 g1 g2 g3
      have := h.2.2.1.symm.trans this
      cases this
    | openCb j e =>
      have := h.2.2.1 i (ih h.2.2.2 g1 g2 g3)
      subst this
      exact absurd (List.mem_cons_self ..) (h1 e)
    | closeOk j => exact absurd (List.mem_cons_self ..) (h2 j)
    | free => exact absurd (List.mem_cons_self ..) h3
    | closeCb j => exact ih h g1 g2 g3
    | read => exact ih h g1 g2 g3
    | write => exact ih h g1 g2 g3

theorem CloseGood.cb {p q : List TEv} {i : Nat} (h : CloseGood (p ++ .closeCb i :: q)) : .closeOk i ∈ q ∧ .closeCb i ∉ q := by
  induction p with
  | nil => exact ⟨h.1, h.2.1⟩
  | cons x p ih =>
    cases x with
    | closeOk j => exact ih h.2.2.2
    | closeCb j => exact ih h.2.2.2
    | _ => exact ih h

theorem CloseGood.pend {p q : List TEv} {i : Nat} (h : CloseGood (p ++ .closeOk i :: q)) (h1 : .closeCb i ∉ p)
    (h3 : .free ∉ p) : pendClose (p ++ .closeOk i :: q) = some i := by
  induction p with
  | nil => rfl
  | cons x p ih =>
    have g1 : .closeCb i ∉ p := fun he => h1 (by simp [he])
    have g3 : .free ∉ p := fun he => h3 (by simp [he])
    cases x with
    | closeOk j =>
      have := ih h.2.2.2 g1 g3
      have := h.2.2.1.symm.trans this
      cases this
    | closeCb j =>
      have := h.2.2.1 i (ih h.2.2.2 g1 g3)
      subst this
      exact absurd (List.mem_cons_self ..) h1
    | free => exact absurd (List.mem_cons_self ..) h3
    | openOk j => exact ih h g1 g3
    | openCb j e => exact ih h g1 g3
    | read => exact ih h g1 g3
    | write => exact ih h g1 g3

theorem lastClosed_append {p q : List TEv} {i : Nat} (h1 : ∀ j, .openOk j ∉ p) : lastClosed (p ++ .closeCb i :: q) = true := by
  induction p with
  | nil => rfl
  | cons x p ih =>
    have g1 : ∀ j, .openOk j ∉ p := fun j he => h1 j (by simp [he])
    cases x with
    | openOk j => exact absurd (List.mem_cons_self ..) (h1 j)
    | closeCb j => rfl
    | _ => exact ih g1

theorem Quiet.after {p q : List TEv} {i : Nat} (h : Quiet (p ++ .closeCb i :: q)) (h1 : ∀ j, .openOk j ∉ p) :
    .read ∉ p ∧ .write ∉ p ∧ ∀ j e, .openCb j e ∉ p := by
  induction p with
  | nil => simp
  | cons x p ih =>
    have g1 : ∀ j, .openOk j ∉ p := fun j he => h1 j (by simp [he])
    have hl := lastClosed_append (i := i) (q := q) g1
    cases x with
    | read => exact absurd (hl.symm.trans h.1) (by simp)
    | write => exact absurd (hl.symm.trans h.1) (by simp)
    | openCb j e => exact absurd (hl.symm.trans h.1) (by simp)
    | _ => have := ih h g1; simp [this]

theorem Inv.h {s : St} (h : Inv s) : H {} s := by
  rcases h with h | h
  · exact h.2.2
  · exact h.hi

/-! ## C28: an accepted open is reported once -/

/-- In every clean run the report of an open comes after its acceptance and there is no earlier report of it.  An accepted
open that is neither reported, nor followed by an accepted close or a free, still has its callback, and something is going on
that leads to it: the lower layer owes its open callback, the filter is connecting, the lower layer is closing after an
error, or the deferred operation that reports it is scheduled.

Partial: in a clean run only; see the three theorems below. -/
theorem C28_partial {d : Int} {s : St} (h : Clean d s) (i : Nat) :
    (∀ p q e, s.tr = p ++ .openCb i e :: q → .openOk i ∈ q ∧ ∀ e', .openCb i e' ∉ q) ∧
    (∀ p q, s.tr = p ++ .openOk i :: q → (∀ e, .openCb i e ∉ p) → (∀ j, .closeOk j ∉ p) → .free ∉ p →
      s.openDone = some i ∧ ((s.ll = .opening ∧ s.llCb = true) ∨ s.st = .inFilterOpen ∨ (s.st = .inLlIoErr ∧ s.ll = .closing) ∨
        (s.dOpen = true ∧ s.dPend = true))) := by
  have hi := h.inv.h
  refine ⟨fun p q e ht => ?_, fun p q ht h1 h2 h3 => ?_⟩
  · have := hi.og
    rw [ht] at this
    exact this.cb
  · have hg := hi.og
    rw [ht] at hg
    have hp := hg.pend h1 h2 h3
    rw [← ht] at hp
    obtain ⟨e1, e2⟩ := hi.po i hp
    refine ⟨e1, ?_⟩
    rcases h.inv with ⟨-, hc, -⟩ | hd
    · rcases e2 with e | e | e | e
      · have := hc.ll2 e
        exact .inl ⟨this, hc.cb this⟩
      · exact .inr (.inl e)
      · exact .inr (.inr (.inl ⟨e, hc.ll4 e⟩))
      · exact .inr (.inr (.inr ⟨e, (hc.dop e).2.1⟩))
    · rcases e2 with e | e | e | e
      · rw [hd.st] at e; cases e
      · rw [hd.st] at e; cases e
      · rw [hd.st] at e; cases e
      · rw [hd.dop] at e; cases e

theorem ref_fr {s s' : St} (h : ref s = some s') : s'.openDone = s.openDone ∧ s'.tr = s.tr := by
  unfold ref at h
  split at h
  · cases h
  · cases h; exact ⟨rfl, rfl⟩

/-- What those things lead to: the deferred operation and a failed open of the lower layer call the callback. -/
theorem C28_calls {d : Int} {s s' : St} (h : Clean d s) {i : Nat} (ho : s.openDone = some i) :
    (∀ a, s.dOpen = true → exec (.deferred a) s = some s' → s'.tr = .openCb i s.openErr :: s.tr) ∧
    (∀ a err, s.ll = .opening → err ≠ 0 → exec (.llOpenDone a err) s = some s' → s'.tr = .openCb i err :: s.tr) := by
  rcases h.inv with ⟨ht, hc, hi⟩ | hd
  · have hf : ¬ s.freed = true := by simp [ht.live]
    refine ⟨fun a hd e => ?_, fun a err hl he e => ?_⟩
    · have hst := hc.dop hd
      simp only [exec, if_neg hf, deferred, hd, if_true] at e
      obtain ⟨s1, e1, e2⟩ := Option.bind_eq_some_iff.1 e
      cases e2
      unfold finishOpen at e1
      obtain ⟨s2, e2, e3⟩ := Option.bind_eq_some_iff.1 e1
      have hfr : s2.openDone = s.openDone ∧ s2.tr = s.tr := by
        unfold finishOpenSt at e2
        split at e2
        · split at e2
          · rw [doIf] at e2
            split at e2
            · unfold startTimer at e2
              split at e2
              · cases e2; exact ⟨rfl, rfl⟩
              · obtain ⟨g1, g2⟩ := ref_fr e2
                exact ⟨g1, g2⟩
            · cases e2; exact ⟨rfl, rfl⟩
          · cases e2
        · cases e2; exact ⟨rfl, rfl⟩
      rw [hfr.1, ho] at e3
      cases e3
      simp [hfr.2]
    · have hst := hc.opening hl
      have h1 := hc.err3 (.inl hst)
      have h2 : s.llErr = 0 := by
        have := hc.err1
        cases e : s.llErr
        · rfl
        · simp [e, hst] at this
      have hp := ht.pos
      simp only [exec, if_neg hf, llOpenDone, llOpened, hl, if_true, if_neg he, ref] at e
      rw [if_neg (by omega)] at e
      simp only [Option.bind_eq_bind, Option.bind_some] at e
      rw [if_neg (by simp [h1, h2]), if_pos he] at e
      simp only [finishOpen, finishOpenSt, if_neg he, Option.bind_eq_bind, Option.bind_some, ho, park] at e
      cases e
      rfl
  · refine ⟨fun a hd2 => ?_, fun a err hl => ?_⟩
    · rw [hd.dop] at hd2; cases hd2
    · rw [hd.ll] at hl; cases hl

/-- A run that opens, reads, writes, closes and frees: everything is reported once and the memory is released. -/
example : (cplay (opening ++ [.setRead {} true, .llRead (ans [(2, 1)]) 0, .cont (ans [(0, 1)]) 0 0 true, .cont {} 0 0 false,
      .cont {} 0 0 false, .setWrite (ans [(0, 1)]) true, .deferred (ans [(1, 1)]), .cont {} 0 0 false] ++ closing ++
      [.free {}]) (init (-1))).map (fun s => (s.tr, s.freed, s.leak)) =
    some ([.free, .closeCb 1, .closeOk 1, .write, .read, .openCb 0 0, .openOk 0], true, 0) := by
  decide +kernel

/-- An open that fails in the lower layer is reported with the error. -/
example : (cplay [.open_ (ans [(1, 11)]), .llOpenDone {} 7] (init (-1))).map (·.tr) = some [.openCb 0 7, .openOk 0] := by
  decide +kernel

/-- A close before the report: the open is never reported, although nothing goes on any more and nothing was freed
(`gensio_close(3)` leaves this open). -/
theorem C28_close_violated : ∃ s, Clean (-1) s ∧ (idle s && s.st = .closed && s.tr = [.closeCb 1, .closeOk 1, .openOk 0]) = true :=
  clean_of ([.open_ (ans [(1, 11)])] ++ closing) (by decide +kernel)

/-- The filter fails after the lower layer has opened, and `ll_close` fails (:878-880): the open is never reported. -/
theorem C28_llclose_violated :
    ∃ s, Reach (-1) s ∧ (idle s && s.st = .ioErr && s.openDone = some 0 && s.tr = [.openOk 0]) = true :=
  reach_of [.open_ (ans [(1, 11)]), .llOpenDone { n := (ans [(0, 5)]).n, clOk := false } 0] (by decide +kernel)

/-- In that state only a close or a free goes on. -/
theorem C28_llclose_stuck : ∀ e, (∃ a err, e = Ev.llOpenDone a err) ∨ e = .llCloseDone ∨ (∃ a, e = .deferred a) ∨ e = .fire ∨ e = .dfire →
    ∀ s, idle s = true → s.ll = .closed → ¬ En s e := by
  intro e he s h hl
  simp only [idle, Bool.and_eq_true, Bool.not_eq_true'] at h
  rcases he with ⟨a, err, rfl⟩ | rfl | ⟨a, rfl⟩ | rfl | rfl <;> simp [En, hl, h]

/-! ## C29: an accepted close is reported once, and nothing follows -/

/-- In every clean run the report of a close comes after its acceptance and there is no earlier report of it; between it and
the next accepted open there is no open callback, no read callback (with data or an error) and no write ready callback.  An
accepted close that is neither reported nor followed by a free still has its callback, and something is going on: the close
waits for output or for the filter, the lower layer is closing, the deferred operation is scheduled or running, or the thread
is about to call the callback.

Partial: in a clean run only; see the theorems below. -/
theorem C29_partial {d : Int} {s : St} (h : Clean d s) (i : Nat) :
    (∀ p q, s.tr = p ++ .closeCb i :: q → .closeOk i ∈ q ∧ .closeCb i ∉ q ∧
      ((∀ j, .openOk j ∉ p) → .read ∉ p ∧ .write ∉ p ∧ ∀ j e, .openCb j e ∉ p)) ∧
    (∀ p q, s.tr = p ++ .closeOk i :: q → .closeCb i ∉ p → .free ∉ p →
      s.closeDone = some i ∧ (s.st = .waitDrain ∨ s.st = .inFilterClose ∨ s.ll = .closing ∨
        (s.dClose = true ∧ (s.dPend = true ∨ ∃ p ∈ s.th, p = .dOpen ∨ p = .dReadErr ∨ p = .dFilt ∨ p = .dFiltCb ∨ p = .dWrite)) ∨
        .closePre ∈ s.th)) := by
  have hi := h.inv.h
  refine ⟨fun p q ht => ?_, fun p q ht h1 h3 => ?_⟩
  · have hg := hi.cg
    have hq := hi.q
    rw [ht] at hg hq
    exact ⟨hg.cb.1, hg.cb.2, fun h => hq.after h⟩
  · have hg := hi.cg
    rw [ht] at hg
    have hp := hg.pend h1 h3
    rw [← ht] at hp
    obtain ⟨e1, e2⟩ := hi.pc i hp
    refine ⟨e1, ?_⟩
    have pos : ∀ {f : X → Nat}, 0 < cnt f s.th → ∃ p ∈ s.th, 0 < f (wt p) := by
      intro f hf
      apply Classical.byContradiction
      intro hn
      have := cnt_eq_zero (f := f) (l := s.th) (fun p hp => Nat.eq_zero_of_not_pos (fun h => hn ⟨p, hp, h⟩))
      omega
    have hpre : 0 < cnt X.pre s.th → .closePre ∈ s.th := by
      intro hf
      obtain ⟨p, hm, hp⟩ := pos hf
      cases p <;> first | exact hm | simp [wt] at hp
    rcases h.inv with ⟨-, hc, -⟩ | hd
    · have hdc : s.dClose = true → s.dPend = true ∨
          ∃ p ∈ s.th, p = .dOpen ∨ p = .dReadErr ∨ p = .dFilt ∨ p = .dFiltCb ∨ p = .dWrite := by
        intro e
        rcases (hc.dcl e).2.2 with h | h
        · exact .inl h
        · have : 0 < cnt X.dop s.th ∨ 0 < cnt X.rdD s.th ∨ 0 < cnt X.xmD s.th := by simp at h; omega
          right
          rcases this with h | h | h
          · obtain ⟨p, hm, hp⟩ := pos h
            refine ⟨p, hm, ?_⟩
            cases p <;> simp [wt] at hp ⊢
          · obtain ⟨p, hm, hp⟩ := pos h
            refine ⟨p, hm, ?_⟩
            cases p <;> simp [wt] at hp ⊢
          · obtain ⟨p, hm, hp⟩ := pos h
            refine ⟨p, hm, ?_⟩
            cases p <;> simp [wt] at hp ⊢
      rcases e2 with e | e | e | e | e
      · exact .inl e
      · exact .inr (.inl e)
      · rcases hc.ll6 e with h | h
        · exact .inr (.inr (.inl h))
        · exact .inr (.inr (.inr (.inl ⟨h.2, hdc h.2⟩)))
      · exact .inr (.inr (.inr (.inl ⟨e.2, hdc e.2⟩)))
      · exact .inr (.inr (.inr (.inr (hpre (by simpa using e)))))
    · rcases e2 with e | e | e | e | e
      · rw [hd.st] at e; cases e
      · rw [hd.st] at e; cases e
      · rw [hd.st] at e; cases e
      · have e := e.1
        rw [hd.st] at e; cases e
      · exact .inr (.inr (.inr (.inr (hpre (by simpa using e)))))

/-- When the close callback is about to be called, or is being called and no open was accepted since, no thread is in a
callback or in the filter, except in timer handlers. -/
theorem C29_alone {d : Int} {s : St} (h : Clean d s) (hs : s.st = .closed) (p : Pc) (hp : p ∈ s.th) :
    p ≠ .dOpen ∧ p ≠ .dReadErr ∧ p ≠ .dFilt ∧ p ≠ .dFiltCb ∧ p ≠ .dWrite ∧ p.isLl = false := by
  rcases h.inv with ⟨-, hc, -⟩ | hd
  · have h1 := (hc.cl (.inl hs)).2
    have h2 : cnt X.ll s.th = 0 := by
      have := hc.ll7
      have h3 := hc.ll1 hs
      simp only [h3] at this
      apply Nat.eq_zero_of_not_pos
      intro h
      have := this (by omega)
      simp at this
    have g1 := of_cnt_zero (f := X.dop) (l := s.th) (by simp at h1; omega) p hp
    have g2 := of_cnt_zero (f := X.rdD) (l := s.th) (by simp at h1; omega) p hp
    have g3 := of_cnt_zero (f := X.xmD) (l := s.th) (by simp at h1; omega) p hp
    have g4 := of_cnt_zero h2 p hp
    cases p <;> simp [wt, Pc.isLl] at g1 g2 g3 g4 ⊢
  · have := hd.th p hp
    cases p <;> simp [Pc.out, Pc.isLl] at this ⊢

/-- The filter delivers data only while the gensio is open or has failed, and only while reading is enabled; in particular not
between a close of an open gensio and its report. -/
theorem C29_deliver {s s' : St} {a : Ans} {i r : Nat} {p : Pc} (hp : s.th[i]? = some p)
    (hf : p = .dFilt ∨ p = .dFiltCb ∨ p = .rFilt ∨ p = .rFiltCb) (e : exec (.cont a i r true) s = some s') :
    s'.tr = s.tr ∨ (s'.tr = .read :: s.tr ∧ s.readEn = true ∧ (s.st = .opn ∨ s.st = .inLlIoErr ∨ s.st = .ioErr)) := by
  have key : ∀ {s0 : St} {x y : Pc}, s0.tr = s.tr → s0.readEn = s.readEn → s0.st = s.st → handler a x y s0 = some s' →
      s'.tr = s.tr ∨ (s'.tr = .read :: s.tr ∧ s.readEn = true ∧ (s.st = .opn ∨ s.st = .inLlIoErr ∨ s.st = .ioErr)) := by
    intro s0 x y e1 e2 e3 e
    unfold handler at e
    split at e
    · rename_i h
      simp only [canDeliver, Bool.and_eq_true, Bool.or_eq_true, decide_eq_true_eq, e1, e2, e3] at h
      cases e
      refine .inr ⟨by simp [e1], h.1.2, ?_⟩
      rcases h.1.1 with (x | x) | x <;> simp [x]
    · cases e; exact .inl e1
  simp only [exec, hp] at e
  rcases hf with rfl | rfl | rfl | rfl <;> simp only [resume, if_true] at e <;> (split at e; · cases e) <;> refine key ?_ ?_ ?_ e <;> rfl

/-- When `ll_close` fails on a close while the gensio opens, the deferred operation that reports the close is scheduled. -/
theorem C29_llclose {d : Int} {s s' : St} {a : Ans} (h : Clean d s) (hs : s.st = .inLlOpen ∨ s.st = .inFilterOpen) (ha : a.clOk = false)
    (hr : s.closeReq = false) (hf : s.freed = false) (e : exec (.close a) s = some s') :
    s'.closeDone = some s.nid ∧ s'.dClose = true ∧ s'.dPend = true ∧ s'.st = .inLlClose ∧ s'.tr = .closeOk s.nid :: s.tr := by
  have hr2 : ∀ {x y : St}, sched x = some y → y.closeDone = x.closeDone ∧ y.dClose = x.dClose ∧ y.dPend = true ∧ y.st = x.st ∧ y.tr = x.tr := by
    intro x y e
    unfold sched at e
    split at e
    · cases e; exact ⟨rfl, rfl, by assumption, rfl, rfl⟩
    · unfold ref at e
      split at e
      · cases e
      · cases e; exact ⟨rfl, rfl, rfl, rfl, rfl⟩
  have hst : (s.st = .opn || s.st = .inFilterOpen || s.st = .inLlOpen) = true := by rcases hs with x | x <;> simp [x]
  have hst2 : (s.st = .inLlOpen || s.st = .inFilterOpen) = true := by rcases hs with x | x <;> simp [x]
  simp only [exec, hf, Bool.false_eq_true, if_false, close, hr, hst, if_true, iClose, closeAcc, iCloseSt, hst2, llCloseOrDefer, llClose, ha] at e
  obtain ⟨s1, e1, e2⟩ := Option.bind_eq_some_iff.1 e
  obtain ⟨g1, g2, g3, g4, g5⟩ := hr2 e1
  unfold setLlEnables at e2
  split at e2
  · cases e2; exact ⟨g1, g2, g3, g4, g5⟩
  · split at e2
    · cases e2; exact ⟨g1, g2, g3, g4, g5⟩
    · split at e2
      · rename_i h; simp [g4] at h
      · cases e2; exact ⟨g1, g2, g3, g4, g5⟩

/-- The same to the report, and for an open gensio whose filter closes at once. -/
example : (play [.open_ (ans [(1, 11)]), .close { clOk := false }, .deferred {}, .cont {} 0 0 false, .cont {} 0 0 false] (init (-1))).any
    (fun s => s.st = .closed && s.tr = [.closeCb 1, .closeOk 1, .openOk 0]) = true := by decide +kernel

example : (play (opening ++ [.close { clOk := false }, .deferred {}, .cont {} 0 0 false, .cont {} 0 0 false]) (init (-1))).any
    (fun s => s.st = .closed && s.tr = [.closeCb 1, .closeOk 1, .openCb 0 0, .openOk 0]) = true := by decide +kernel

/-- The gensio is opened and closed again between the unlock in `basen_finish_close` and the call of the close callback
(:948-949): the first close is never reported and the second one is reported twice. -/
theorem C29_swapped_violated : ∃ s, Reach (-1) s ∧ (idle s && s.st = .closed &&
    s.tr = [.closeCb 3, .closeCb 3, .closeOk 3, .openCb 2 0, .openOk 2, .closeOk 1, .openCb 0 0, .openOk 0]) = true :=
  reach_of (opening ++ [.close {}, .llCloseDone, .deferred {}] ++ [.open_ (ans [(1, 11)]), .llOpenDone {} 0, .deferred {},
    .cont {} 0 0 false, .close {}, .cont {} 0 0 false, .llCloseDone, .cont {} 0 0 false, .deferred {}, .cont {} 0 0 false,
    .cont {} 0 0 false]) (by decide +kernel)

/-- A close accepted in the open callback is reported while that callback is still running. -/
theorem C29_overlap_violated : ∃ s, Reach (-1) s ∧ (s.th = [.closing, .dOpen] &&
    s.tr = [.closeCb 1, .closeOk 1, .openCb 0 0, .openOk 0]) = true :=
  reach_of [.open_ (ans [(1, 11)]), .llOpenDone {} 0, .deferred {}, .close {}, .llCloseDone, .deferred {}, .cont {} 0 0 false]
    (by decide +kernel)

/-- A timer that went off before the close and gets the lock after it, with an error from the filter's pending output: the
assertion in `i_handle_ioerr` fails (:865-868). -/
theorem C29_timer_violated : ∃ s, Clean (-1) s ∧ (s.st = .closed && s.th = [.tStart]) = true ∧
    En s (.cont (ans [(20, 1), (24, 5)]) 0 0 false) ∧ exec (.cont (ans [(20, 1), (24, 5)]) 0 0 false) s = none := by
  obtain ⟨s, h1, h2⟩ := clean_of (d := -1) (P := fun s => (s.st = .closed && s.th = [.tStart]) &&
    decide (En s (.cont (ans [(20, 1), (24, 5)]) 0 0 false)) && (exec (.cont (ans [(20, 1), (24, 5)]) 0 0 false) s).isNone)
    (opening ++ [.llWriteReady {}, .filtOp 1, .fire] ++ closing) (by decide +kernel)
  simp only [Bool.and_eq_true, Option.isNone_iff_eq_none, decide_eq_true_eq] at h2 ⊢
  exact ⟨s, h1, h2.1.1, h2.1.2, h2.2⟩

/-- A gensio that was closed once and opened again with `basen_open_nochild` cannot be closed: `close_requested` is still set
(:1279-1288 do not clear it), so the close is refused. -/
theorem C29_nochild_violated : ∃ s, Clean (-1) s ∧ (idle s && s.st = .opn && s.closeReq) = true ∧
    ∀ a, exec (.close a) s = some s := by
  obtain ⟨s, h1, h2⟩ := clean_of (d := -1) (P := fun s => (idle s && s.st = .opn && s.closeReq) && !s.freed)
    (opening ++ closing ++ [.openNochild {}, .deferred {}, .cont {} 0 0 false]) (by decide +kernel)
  refine ⟨s, h1, ?_, fun a => ?_⟩
  · simp only [Bool.and_eq_true] at h2 ⊢
    exact h2.1
  · simp only [Bool.and_eq_true, Bool.not_eq_true'] at h2
    simp [exec, h2.2, close, h2.1.2]

/-- A gensio with a drain timeout is closed, drains, is opened again and closed before the selector has called the done handler
of the drain timer: starting it fails and so does the assertion in `basen_start_drain_timer` (:676-684). -/
theorem C29_drain_violated : ∃ s, Clean 5 s ∧ (s.st = .opn && s.th.isEmpty) = true ∧ En s (.close (ans [(0, 1)])) ∧
    exec (.close (ans [(0, 1)])) s = none := by
  obtain ⟨s, h1, h2⟩ := clean_of (d := 5) (P := fun s => (s.st = .opn && s.th.isEmpty) && decide (En s (.close (ans [(0, 1)]))) &&
    (exec (.close (ans [(0, 1)])) s).isNone) (opening ++ [.close (ans [(0, 1)]), .llWriteReady {}, .llCloseDone, .deferred {},
      .cont {} 0 0 false, .cont {} 0 0 false] ++ opening) (by decide +kernel)
  simp only [Bool.and_eq_true, Option.isNone_iff_eq_none, decide_eq_true_eq] at h2 ⊢
  exact ⟨s, h1, h2.1.1, h2.1.2, h2.2⟩

/-! ## C30: the memory is released once and only when idle -/

/-- In every clean run:
* no step uses released memory, takes a reference at count zero, or fails an assertion;
* the memory is released only after the user's free, when the gensio is closed, no deferred operation is scheduled, no timer is
  in the heap, the lower layer is closed, and no thread will touch it again;
* once the user has freed it, the gensio is closed and nothing goes on, it is released unless references were lost to a timer
  (`leak`, see the theorems below).

Partial: in a clean run only. -/
theorem C30_partial {d : Int} {s : St} (h : Clean d s) :
    (∀ e, En s e → e.clOk = true → Pre s e → ∃ s', exec e s = some s') ∧
    (s.freed = true → s.uf = true ∧ s.st = .closed ∧ s.dPend = false ∧ s.tm.inHeap = false ∧ s.dtm.inHeap = false ∧
      s.ll = .closed ∧ ∀ p ∈ s.th, p.out = true) ∧
    (s.uf = true → s.st = .closed → s.dPend = false → s.tm.stopped = true → s.tm.inHeap = false → s.dtm.stopped = true →
      s.dtm.inHeap = false → (∀ p ∈ s.th, p.out = true) → s.leak = 0 → s.freed = true) := by
  refine ⟨fun e h1 h2 h3 => ?_, fun hf => ?_, fun h1 h2 h3 h4 h5 h6 h7 h8 h9 => ?_⟩
  · obtain ⟨s', e, -⟩ := step_inv h.inv h1 h2 h3
    exact ⟨s', e⟩
  · rcases h.inv with ⟨ht, -, -⟩ | hd
    · rw [ht.live] at hf; cases hf
    · exact ⟨hd.uf, hd.st, hd.dPend, hd.tm, hd.dtm, hd.ll, hd.th⟩
  · rcases h.inv with ⟨ht, -, -⟩ | hd
    · have he := ht.eq
      have hp := ht.pos
      have g1 : cnt X.ref s.th = 0 := cnt_eq_zero (fun p hp => by have := h8 p hp; cases p <;> first | rfl | simp [Pc.out] at this)
      have g2 : cnt X.opn s.th = 0 := cnt_eq_zero (fun p hp => by have := h8 p hp; cases p <;> first | rfl | simp [Pc.out] at this)
      simp [h1, h2, h3, h4, h5, h6, h7, h9, g1, g2, tmr, bst] at he
      omega
    · exact hd.freed

/-- Released once: a released gensio stays released, in every run, and the release itself is refused by the model when it has
happened already. -/
theorem C30_once {s s' : St} {e : Ev} (h : s.freed = true) (he : exec e s = some s') : s'.freed = true ∧ s'.ref = s.ref := by
  cases e with
  | cont a i r d =>
    unfold exec at he
    dsimp only at he
    split at he
    · cases he
    · rw [if_pos h] at he
      split at he
      · cases he; exact ⟨h, rfl⟩
      · cases he
  | _ =>
    unfold exec at he
    dsimp only at he
    rw [if_pos h] at he
    cases he

/-- A filter that starts its timer twice in the timer's handler: both starts succeed and take a reference, one is given back,
and the gensio is never released (:319-324 and os_unix_selector.c:947-975). -/
theorem C30_double_violated : ∃ s, Clean (-1) s ∧ (idle s && s.st = .closed && s.uf && s.tm.stopped && s.ref = 1 && !s.freed) = true :=
  clean_of (opening ++ [.filtOp 1, .fire, .cont {} 0 0 false, .filtOp 1, .filtOp 1, .cont {} 0 0 false, .cont {} 0 0 false] ++
    [.close {}, .llCloseDone, .deferred {}, .cont {} 0 0 false, .cont {} 0 0 false, .fire, .cont {} 0 0 false, .cont {} 0 0 false,
      .free {}]) (by decide +kernel)

/-- A gensio closed with its timer running and opened again before the selector has called the timer's done handler:
`basen_stop_timer` at :1149 takes the timer out of the heap, the done handler is never called, the timer never goes off again,
and the gensio is never released. -/
theorem C30_reopen_violated : ∃ s, Clean (-1) s ∧ (idle s && s.st = .closed && s.uf && s.tm.inHandler && s.ref = 2 && !s.freed) = true :=
  clean_of (opening ++ [.filtOp 1] ++ closing ++ opening ++ [.filtOp 1] ++ closing ++ [.free {}]) (by decide +kernel)

/-- A gensio opened again from the close callback, where the filter starts its timer: when the callback returns
`basen_finish_close` stops that timer (:952-969). -/
theorem C30_timer_violated : ∃ s s', Clean (-1) s ∧ exec (.cont {} 0 0 false) s = some s' ∧
    (s.st = .opn && s.tm = { inHeap := true, stopped := false } && s.th = [.closing] && s'.st = .opn && s'.tm.stopped && s'.tm.done) = true := by
  obtain ⟨s, h1, h2⟩ := clean_of (d := -1) (P := fun s => (exec (.cont {} 0 0 false) s).any (fun s' =>
      s.st = .opn && s.tm = { inHeap := true, stopped := false } && s.th = [.closing] && s'.st = .opn && s'.tm.stopped && s'.tm.done))
    (opening ++ [.close {}, .llCloseDone, .deferred {}, .cont {} 0 0 false] ++ [.open_ (ans [(1, 11)]), .llOpenDone {} 0,
      .deferred {}, .cont {} 0 0 false, .filtOp 1]) (by decide +kernel)
  rw [Option.any_eq_true] at h2
  obtain ⟨s', e, h2⟩ := h2
  exact ⟨s, s', h1, e, h2⟩

/-- The lower layer opens at once and the filter fails: the open is refused, the lower layer stays open (:1238-1254), and free
releases the gensio with it. -/
theorem C30_refused_violated : ∃ s, Reach (-1) s ∧ (s.freed && s.ll = .opn && s.tr = [.free]) = true :=
  reach_of [.open_ (ans [(2, 5)]), .free {}] (by decide +kernel)

end Gensio.Base
