import Verif.Model.Echo
/-!
# Lemmas about the echo gensio: the invariant of all runs
-/
namespace Gensio.Echo

/-- The opens reported. -/
def openedOf (l : List Ev) : List Nat := l.flatMap fun e => match e with | .opened i _ => [i] | _ => []
/-- The closes reported. -/
def closedOf (l : List Ev) : List Nat := l.flatMap fun e => match e with | .closed i => [i] | _ => []

@[simp] theorem openedOf_append (a b : List Ev) : openedOf (a ++ b) = openedOf a ++ openedOf b := by simp [openedOf]
@[simp] theorem closedOf_append (a b : List Ev) : closedOf (a ++ b) = closedOf a ++ closedOf b := by simp [closedOf]

/-- What holds always, whether the operation is running or not; `d` is the data at the start. -/
structure Core (d : List UInt8) (s : E) : Prop where
  refs : s.ref = (if s.freed then 0 else 1) + (if s.pend then 1 else 0)
  gone : s.gone = decide (s.ref = 0)
  data : d ++ s.put = s.got ++ s.buf
  cap : s.buf.length ≤ s.cap
  freed : s.freed = true → s.st = .closed
  opens : s.freed = false → s.opens = openedOf s.evs ++ if s.st = .inOpen ∨ s.st = .inOpenClose then s.openId.toList else []
  closes : s.freed = false → s.closes = closedOf s.evs ++ if s.st = .inClose ∨ s.st = .inOpenClose then s.closeId.toList else []

/-- Nothing is left to do, or an error has ended the operation. -/
def Done (s : E) : Prop :=
  s.st = .open → s.err ≠ none ∨ ((s.rd = true → s.buf = []) ∧ (s.wr = true → s.cap ≤ s.buf.length))

/-- The invariant between steps. -/
structure Inv (d : List UInt8) (s : E) : Prop extends Core d s where
  pend : s.pend = (s.queued || s.pc.isSome)
  excl : ¬(s.queued = true ∧ s.pc.isSome = true)
  queued : s.queued = true → s.freed = false → s.st ≠ .closed
  opening : s.st = .inOpen ∨ s.st = .inOpenClose → s.queued = true ∨ s.pc = some .closeCb
  closing : s.st = .inClose → s.pend = true
  atClose : s.pc = some .closeCb → s.st ≠ .open ∧ s.st ≠ .inClose
  offered : ∀ n, s.pc = some (.readCb n) → n ≤ s.buf.length
  idle : s.freed = false → s.pc.isSome = true → s.pc ≠ some .closeCb → s.st ≠ .closed
  awake : s.pend = false → Done s

/-- The operation runs, holding the lock. -/
structure Busy (d : List UInt8) (s : E) : Prop extends Core d s where
  pend : s.pend = true
  nq : s.queued = false

theorem inv_new (n : Nat) (b : Bool) (data : Option (List UInt8)) : Inv (data.getD []) (E.new n b data) := by
  cases data <;> constructor <;> first | constructor <;> simp [E.new, openedOf, closedOf] | simp [E.new, Done]

theorem inv_finish {d : List UInt8} {s : E} (h : Busy d s) (h1 : s.st = .closed ∨ s.st = .open) (h2 : Done s) : ∃ s', finish s = some s' ∧ Inv d s' := by
  obtain ⟨⟨c1, c2, c3, c4, c5, c6, c7⟩, p1, p2⟩ := h
  unfold finish deref
  have hr : s.ref ≠ 0 := by rw [c1, p1]; simp
  rw [if_neg hr]
  by_cases hf : s.freed = true
  · have : s.ref = 1 := by rw [c1, p1, hf]; simp
    rw [if_pos this]
    refine ⟨_, rfl, ?_⟩
    have := c5 hf
    constructor <;> first | constructor <;> simp_all | simp_all [Done]
  · have : s.ref = 2 := by rw [c1, p1]; simp [hf]
    rw [if_neg (by simp only []; omega)]
    refine ⟨_, rfl, ?_⟩
    have hf' : s.freed = false := by simpa using hf
    constructor <;> first | constructor <;> simp_all | (simp_all [Done]; try grind)

theorem inv_callRead {d : List UInt8} {s : E} (h : Busy d s) (k : Nat) (h1 : s.st = .open) : ∃ s', callRead s k = some s' ∧ Inv d s' := by
  obtain ⟨⟨c1, c2, c3, c4, c5, c6, c7⟩, p1, p2⟩ := h
  refine ⟨_, rfl, ?_⟩
  constructor <;> first | constructor <;> simp_all [openedOf, closedOf] | (simp_all [Done]; try omega)

theorem inv_goTail {d : List UInt8} {s : E} (h : Busy d s) (k : Nat) (h1 : s.st ≠ .inOpen ∧ s.st ≠ .inOpenClose)
    (h2 : s.st = .open → s.err ≠ none ∨ (s.wr = true → s.cap ≤ s.buf.length)) : ∃ s', goTail s k = some s' ∧ Inv d s' := by
  unfold goTail
  split
  · rename_i hc; exact inv_callRead h k hc.2.1
  · rename_i hn
    split
    · rename_i hc
      dsimp only
      cases hi : s.closeId with
      | none =>
        dsimp only
        refine inv_finish ?_ (Or.inl rfl) (by intro h; cases h)
        obtain ⟨⟨c1, c2, c3, c4, c5, c6, c7⟩, p1, p2⟩ := h
        constructor <;> first | constructor <;> simp_all | simp_all
      | some i =>
        dsimp only
        refine ⟨_, rfl, ?_⟩
        obtain ⟨⟨c1, c2, c3, c4, c5, c6, c7⟩, p1, p2⟩ := h
        constructor <;> first | constructor <;> simp_all [openedOf, closedOf] | simp_all [Done]
    · rename_i hc
      have hst : s.st = .closed ∨ s.st = .open := by cases hs : s.st <;> simp_all
      refine inv_finish h hst ?_
      intro ho
      rcases h2 ho with h2 | h2
      · exact Or.inl h2
      · by_cases he : s.err = none
        · right
          refine ⟨fun hr => ?_, h2⟩
          cases hb : s.buf with
          | nil => rfl
          | cons x xs => exact absurd ⟨he, ho, by rw [hb]; simp, hr⟩ hn
        · exact Or.inl he

theorem inv_goWrite {d : List UInt8} {s : E} (h : Busy d s) (k : Nat) (h1 : s.st ≠ .inOpen ∧ s.st ≠ .inOpenClose) : ∃ s', goWrite s k = some s' ∧ Inv d s' := by
  unfold goWrite
  split
  · rename_i hc
    refine ⟨_, rfl, ?_⟩
    obtain ⟨⟨c1, c2, c3, c4, c5, c6, c7⟩, p1, p2⟩ := h
    constructor <;> first | constructor <;> simp_all [openedOf, closedOf] | simp_all [Done]
  · rename_i hn
    refine inv_goTail h k h1 fun ho => Or.inr fun hw => ?_
    apply Nat.le_of_not_lt
    intro hl
    exact hn ⟨ho, hl, hw⟩

theorem inv_goRead {d : List UInt8} {s : E} (h : Busy d s) (k : Nat) (h1 : s.st ≠ .inOpen ∧ s.st ≠ .inOpenClose) : ∃ s', goRead s k = some s' ∧ Inv d s' := by
  unfold goRead
  split
  · rename_i hc
    split
    · refine ⟨_, rfl, ?_⟩
      obtain ⟨⟨c1, c2, c3, c4, c5, c6, c7⟩, p1, p2⟩ := h
      constructor <;> first | constructor <;> simp_all [openedOf, closedOf] | simp_all [Done]
    · exact inv_callRead h k hc.1
  · exact inv_goWrite h k h1

theorem inv_restart {d : List UInt8} {s : E} (h : Busy d s) (k : Nat) : ∃ s', restart s k = some s' ∧ Inv d s' := by
  unfold restart
  split
  · rename_i hc
    dsimp only
    have hf : s.freed = false := by
      cases hf : s.freed with
      | false => rfl
      | true => have := h.freed hf; rw [this] at hc; simp at hc
    obtain ⟨⟨c1, c2, c3, c4, c5, c6, c7⟩, p1, p2⟩ := h
    by_cases ho : s.st = .inOpenClose
    · simp only [ho, if_true]
      cases hi : s.openId with
      | some i =>
        dsimp only
        refine ⟨_, rfl, ?_⟩
        constructor <;> first | constructor <;> simp_all [openedOf, closedOf] | simp_all [Done]
      | none =>
        dsimp only
        refine inv_goRead ?_ k (by simp)
        constructor <;> first | constructor <;> simp_all | simp_all
    · simp only [ho, if_false]
      cases hi : s.openId with
      | some i =>
        dsimp only
        refine ⟨_, rfl, ?_⟩
        constructor <;> first | constructor <;> simp_all [openedOf, closedOf] | simp_all [Done]
      | none =>
        dsimp only
        refine inv_goRead ?_ k (by simp)
        constructor <;> first | constructor <;> simp_all | simp_all
  · rename_i hc; exact inv_goRead h k ⟨fun h => hc (Or.inl h), fun h => hc (Or.inr h)⟩

theorem inv_resume {d : List UInt8} {s : E} (h : Inv d s) (hp : s.pc.isSome = true) (e : Option Err) (count k : Nat) :
    ∃ s', resume s e count k = some s' ∧ Inv d s' := by
  have hb : Busy d s := ⟨h.toCore, by rw [h.pend, hp]; simp, by have := h.excl; rw [hp] at this; simpa using this⟩
  have hst : s.pc ≠ some .closeCb → s.st ≠ .inOpen ∧ s.st ≠ .inOpenClose := by
    intro hc
    constructor <;>
    · intro hs
      rcases h.opening (by simp [hs]) with h1 | h1
      · have := hb.nq; rw [h1] at this; cases this
      · exact hc h1
  have hbe : Busy d { s with err := e } := by
    obtain ⟨⟨c1, c2, c3, c4, c5, c6, c7⟩, p1, p2⟩ := hb
    exact ⟨⟨c1, c2, c3, c4, c5, c6, c7⟩, p1, p2⟩
  unfold resume
  cases hpc : s.pc with
  | none => rw [hpc] at hp; cases hp
  | some pc =>
    cases pc with
    | openCb => exact inv_goRead hb k (hst (by rw [hpc]; simp))
    | remCb => exact inv_goRead hb k (hst (by rw [hpc]; simp))
    | readCb n =>
      dsimp only
      have hn := h.offered n hpc
      split
      · exact inv_goWrite hbe k (hst (by rw [hpc]; simp))
      · rw [if_neg (by omega)]
        refine inv_goRead ?_ k (hst (by rw [hpc]; simp))
        obtain ⟨⟨c1, c2, c3, c4, c5, c6, c7⟩, p1, p2⟩ := hb
        refine ⟨⟨c1, c2, ?_, ?_, c5, c6, c7⟩, p1, p2⟩
        · show d ++ s.put = s.got ++ s.buf.take (min count n) ++ s.buf.drop (min count n)
          rw [c3, List.append_assoc, List.take_append_drop]
        · show (s.buf.drop (min count n)).length ≤ s.cap
          rw [List.length_drop]; omega
    | writeCb =>
      dsimp only
      split
      · rename_i he
        exact inv_goTail hbe k (hst (by rw [hpc]; simp)) fun _ => Or.inl he
      · exact inv_goWrite hbe k (hst (by rw [hpc]; simp))
    | closeCb =>
      dsimp only
      split
      · exact inv_restart hb k
      · rename_i hc
        have hc' : s.st = .closed := by simpa using hc
        exact inv_finish hb (Or.inl hc') (by intro h; rw [hc'] at h; cases h)

/-- The invariant but for what `startOp` brings about. -/
theorem inv_startOp {d : List UInt8} {s t : E} (h : Inv d s) (hf : s.freed = false) (hc : Core d t)
    (hs : t.st ≠ .closed) (e1 : t.pend = s.pend) (e2 : t.queued = s.queued) (e3 : t.pc = s.pc) (e5 : t.ref = s.ref)
    (hb : ∀ n, n ≤ s.buf.length → n ≤ t.buf.length)
    (hcl : s.pc = some .closeCb → t.st ≠ .open ∧ t.st ≠ .inClose)
    (hop : t.st = .inOpen ∨ t.st = .inOpenClose → s.pend = true → s.queued = true ∨ s.pc = some .closeCb) : ∃ s', startOp t = some s' ∧ Inv d s' := by
  have hr : t.ref ≠ 0 := by rw [e5, h.refs, hf]; simp
  unfold startOp
  obtain ⟨c1, c2, c3, c4, c5, c6, c7⟩ := hc
  have hoff := h.offered
  have hex := h.excl
  have hpe := h.pend
  by_cases hp : t.pend = true
  · rw [if_pos hp]
    refine ⟨t, rfl, ⟨⟨c1, c2, c3, c4, c5, c6, c7⟩, ?_, ?_, ?_, ?_, ?_, ?_, ?_, ?_, ?_⟩⟩
    · rw [e1, e2, e3]; exact hpe
    · rw [e2, e3]; exact hex
    · intro _ _; exact hs
    · rw [e2, e3]; intro h'; exact hop h' (by rw [← e1]; exact hp)
    · intro _; exact hp
    · rw [e3]; exact hcl
    · rw [e3]; intro n hn; exact hb n (hoff n hn)
    · intro _ _ _; exact hs
    · intro h'; rw [hp] at h'; cases h'
  · rw [if_neg hp, if_neg hr]
    have hp' : s.pend = false := by rw [← e1]; simpa using hp
    rw [hp'] at hpe
    have hq : s.queued = false ∧ s.pc = none := by
      cases hq : s.queued <;> cases hpc : s.pc <;> rw [hq, hpc] at hpe <;> simp at hpe ⊢
    refine ⟨_, rfl, ⟨⟨?_, ?_, c3, c4, c5, c6, c7⟩, ?_, ?_, ?_, ?_, ?_, ?_, ?_, ?_, ?_⟩⟩
    · show t.ref + 1 = _; rw [c1, e1, hp']; rfl
    · show t.gone = _; rw [c2]; simp [hr]
    · rfl
    · show ¬(true = true ∧ t.pc.isSome = true); rw [e3, hq.2]; simp
    · intro _ _; exact hs
    · intro _; exact Or.inl rfl
    · intro _; rfl
    · show t.pc = _ → _; rw [e3]; exact hcl
    · show ∀ n, t.pc = _ → _; rw [e3]; intro n hn; exact hb n (hoff n hn)
    · intro _ _ _; exact hs
    · intro h'; cases h'

theorem inv_step {d : List UInt8} {s : E} (h : Inv d s) (o : Op) : ∃ s', step s o = some s' ∧ Inv d s' := by
  have hcore := h.toCore
  have hgp : s.pend = true → s.gone = false := by
    intro hp; rw [h.gone, h.refs, hp]; simp
  cases o with
  | run k =>
    rw [step]
    split
    · rename_i hq
      have hp : s.pend = true := by rw [h.pend, hq]; rfl
      rw [if_neg (by rw [hgp hp]; simp)]
      refine inv_restart ?_ k
      obtain ⟨c1, c2, c3, c4, c5, c6, c7⟩ := hcore
      exact ⟨⟨c1, c2, c3, c4, c5, c6, c7⟩, hp, rfl⟩
    · exact ⟨s, rfl, h⟩
  | ret e count k =>
    rw [step]
    split
    · rename_i hq
      have hp : s.pend = true := by rw [h.pend, hq]; simp
      rw [if_neg (by rw [hgp hp]; simp)]
      exact inv_resume h hq _ count k
    · exact ⟨s, rfl, h⟩
  | write dd =>
    rw [step]
    split
    · exact ⟨s, rfl, h⟩
    · rename_i hf
      have hf' : s.freed = false := by simpa using hf
      rw [if_neg (by rw [h.gone, h.refs, hf']; simp)]
      dsimp only
      split
      · exact ⟨s, rfl, h⟩
      · rename_i ho
        have ho' : s.st = .open := by simpa using ho
        split
        · exact ⟨s, rfl, h⟩
        · split
          · refine inv_startOp h hf' ?_ (by rw [ho']; simp) rfl rfl rfl rfl ?_ ?_ ?_
            · obtain ⟨c1, c2, c3, c4, c5, c6, c7⟩ := hcore
              refine ⟨c1, c2, ?_, ?_, c5, c6, c7⟩
              · show d ++ (s.put ++ _) = s.got ++ (s.buf ++ _)
                rw [← List.append_assoc, c3, List.append_assoc]
              · simp; omega
            · intro n hn; simp; omega
            · intro hc; exact absurd ho' (h.atClose hc).1
            · intro hc; rw [ho'] at hc; simp at hc
          · rename_i hn
            have hn' : min dd.length (s.cap - s.buf.length) = 0 := Decidable.not_not.1 hn
            refine ⟨_, rfl, ?_⟩
            rw [hn']
            simp only [List.take_zero, List.append_nil]
            exact h
  | setRead b =>
    rw [step]
    split
    · exact ⟨s, rfl, h⟩
    · rename_i hf
      have hf' : s.freed = false := by simpa using hf
      rw [if_neg (by rw [h.gone, h.refs, hf']; simp)]
      dsimp only
      obtain ⟨c1, c2, c3, c4, c5, c6, c7⟩ := hcore
      split
      · rename_i hc
        refine inv_startOp h hf' ⟨c1, c2, c3, c4, c5, c6, c7⟩ (by show s.st ≠ _; rw [hc.2.1]; simp) rfl rfl rfl rfl (fun n hn => hn) ?_ ?_
        · intro hc'; exact absurd hc.2.1 (h.atClose hc').1
        · intro hc'; have hc' : s.st = .inOpen ∨ s.st = .inOpenClose := hc'; rw [hc.2.1] at hc'; simp at hc'
      · rename_i hn
        refine ⟨_, rfl, ⟨⟨c1, c2, c3, c4, c5, c6, c7⟩, h.pend, h.excl, h.queued, h.opening, h.closing, h.atClose, h.offered, h.idle, ?_⟩⟩
        intro hp ho
        rcases h.awake hp ho with ha | ha
        · exact Or.inl ha
        · right
          refine ⟨fun hr => ?_, ha.2⟩
          have hr : b = true := hr
          cases hb : s.buf with
          | nil => rfl
          | cons x xs => exact absurd ⟨hr, ho, Or.inl (by rw [hb]; simp)⟩ hn
  | setWrite b =>
    rw [step]
    split
    · exact ⟨s, rfl, h⟩
    · rename_i hf
      have hf' : s.freed = false := by simpa using hf
      rw [if_neg (by rw [h.gone, h.refs, hf']; simp)]
      dsimp only
      obtain ⟨c1, c2, c3, c4, c5, c6, c7⟩ := hcore
      split
      · rename_i hc
        refine inv_startOp h hf' ⟨c1, c2, c3, c4, c5, c6, c7⟩ (by show s.st ≠ _; rw [hc.2.1]; simp) rfl rfl rfl rfl (fun n hn => hn) ?_ ?_
        · intro hc'; exact absurd hc.2.1 (h.atClose hc').1
        · intro hc'; have hc' : s.st = .inOpen ∨ s.st = .inOpenClose := hc'; rw [hc.2.1] at hc'; simp at hc'
      · rename_i hn
        refine ⟨_, rfl, ⟨⟨c1, c2, c3, c4, c5, c6, c7⟩, h.pend, h.excl, h.queued, h.opening, h.closing, h.atClose, h.offered, h.idle, ?_⟩⟩
        intro hp ho
        rcases h.awake hp ho with ha | ha
        · exact Or.inl ha
        · right
          refine ⟨ha.1, fun hr => ?_⟩
          have hr : b = true := hr
          apply Nat.le_of_not_lt
          intro hl
          exact hn ⟨hr, ho, hl⟩
  | «open» id =>
    rw [step]
    split
    · exact ⟨s, rfl, h⟩
    · rename_i hf
      have hf' : s.freed = false := by simpa using hf
      rw [if_neg (by rw [h.gone, h.refs, hf']; simp)]
      split
      · exact ⟨s, rfl, h⟩
      · rename_i ho
        have ho' : s.st = .closed := by simpa using ho
        obtain ⟨c1, c2, c3, c4, c5, c6, c7⟩ := hcore
        refine inv_startOp h hf' ⟨c1, c2, c3, c4, ?_, ?_, ?_⟩ (by simp) rfl rfl rfl rfl (fun n hn => hn) (by simp) ?_
        · intro hh; rw [hf'] at hh; cases hh
        · intro hh; have := c6 hh; rw [ho'] at this; simp at this; simp [this]
        · intro hh; have := c7 hh; rw [ho'] at this; simp at this; simp [this]
        · intro _ hp
          have hp2 := h.pend
          rw [hp] at hp2
          cases hq : s.queued with
          | true => exact Or.inl rfl
          | false =>
            right
            rw [hq] at hp2
            have hs : s.pc.isSome = true := by simpa using hp2.symm
            apply Classical.byContradiction
            intro hc
            exact h.idle hf' hs hc ho'
  | close id =>
    rw [step]
    split
    · exact ⟨s, rfl, h⟩
    · rename_i hf
      have hf' : s.freed = false := by simpa using hf
      rw [if_neg (by rw [h.gone, h.refs, hf']; simp)]
      obtain ⟨c1, c2, c3, c4, c5, c6, c7⟩ := hcore
      split
      · rename_i ho'
        refine inv_startOp h hf' ⟨c1, c2, c3, c4, ?_, ?_, ?_⟩ (by simp) rfl rfl rfl rfl (fun n hn => hn) ?_ (by simp)
        · intro hh; rw [hf'] at hh; cases hh
        · intro hh; have := c6 hh; rw [ho'] at this; simp at this; simp [this]
        · intro hh; have := c7 hh; rw [ho'] at this; simp at this; simp [this]
        · intro hc; exact absurd ho' (h.atClose hc).1
      · split
        · rename_i ho'
          refine inv_startOp h hf' ⟨c1, c2, c3, c4, ?_, ?_, ?_⟩ (by simp) rfl rfl rfl rfl (fun n hn => hn) (by simp) ?_
          · intro hh; rw [hf'] at hh; cases hh
          · intro hh; have := c6 hh; rw [ho'] at this; simp at this; simp [this]
          · intro hh; have := c7 hh; rw [ho'] at this; simp at this; simp [this]
          · intro _ _; exact h.opening (Or.inl ho')
        · exact ⟨s, rfl, h⟩
  | free =>
    show ∃ s', (if s.freed then some s else if s.gone then none else deref { s with st := .closed, freed := true }) = some s' ∧ _
    split
    · exact ⟨s, rfl, h⟩
    · rename_i hf
      have hf' : s.freed = false := by simpa using hf
      rw [if_neg (by rw [h.gone, h.refs, hf']; simp)]
      unfold deref
      obtain ⟨c1, c2, c3, c4, c5, c6, c7⟩ := hcore
      rw [hf'] at c1
      simp only [Bool.false_eq_true, if_false] at c1
      rw [if_neg (by show s.ref ≠ 0; omega)]
      have hex := h.excl
      have hpe := h.pend
      by_cases hp : s.pend = true
      · rw [hp] at c1; simp at c1
        rw [if_neg (by show s.ref ≠ 1; omega)]
        refine ⟨_, rfl, ⟨⟨?_, ?_, c3, c4, fun _ => rfl, by simp, by simp⟩, hpe, hex, by simp, by simp, by simp, by simp, h.offered, by simp, ?_⟩⟩
        · show s.ref - 1 = _; rw [c1]; simp [hp]
        · show s.gone = _; rw [c2, c1]; simp
        · intro _ h'; cases h'
      · rw [if_neg hp] at c1
        rw [if_pos (by show s.ref = 1; omega)]
        refine ⟨_, rfl, ⟨⟨?_, ?_, c3, c4, fun _ => rfl, by simp, by simp⟩, hpe, hex, by simp, by simp, by simp, by simp, h.offered, by simp, ?_⟩⟩
        · show 0 = _; simp [hp]
        · simp
        · intro _ h'; cases h'

theorem inv_run {d : List UInt8} : ∀ (ops : List Op) {s : E}, Inv d s → ∃ s', run s ops = some s' ∧ Inv d s' := by
  intro ops
  induction ops with
  | nil => intro s h; exact ⟨s, rfl, h⟩
  | cons o os ih =>
    intro s h
    obtain ⟨s1, e1, h1⟩ := inv_step h o
    obtain ⟨s2, e2, h2⟩ := ih h1
    exact ⟨s2, by rw [run, e1]; exact e2, h2⟩

end Gensio.Echo
