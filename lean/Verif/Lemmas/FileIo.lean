import Verif.Model.FileIo
/-!
# Invariants of the file gensio
-/
namespace Gensio.FileIo

/-- The opens reported. -/
def openedOf (l : List Ev) : List Nat := l.flatMap fun e => match e with | .opened i _ => [i] | _ => []

/-- The closes reported. -/
def closedOf (l : List Ev) : List Nat := l.flatMap fun e => match e with | .closed i => [i] | _ => []

@[simp] theorem openedOf_append (a b : List Ev) : openedOf (a ++ b) = openedOf a ++ openedOf b := by simp [openedOf]
@[simp] theorem closedOf_append (a b : List Ev) : closedOf (a ++ b) = closedOf a ++ closedOf b := by simp [closedOf]

/-- A callback after which the loop of read callbacks is entered. -/
def Pc.reads : Pc → Bool
  | .openCb | .readCb _ => true
  | _ => false

/-- A callback after which the loop of write callbacks is entered. -/
def Pc.writes : Pc → Bool
  | .closeCb => false
  | _ => true

/-- The operation that runs now, if one does, is: before the loop of reads (0), before that of writes (1), after both (2). -/
abbrev Ph := Option Nat

/-- What holds of every state; `ph` says where the operation is that has the lock. -/
structure Inv (ph : Ph) (s : F) : Prop where
  refs : s.ref = (if s.freed then 0 else 1) + (if s.queued then 1 else 0) + s.ths.length + (if ph.isSome then 1 else 0)
  gone : s.gone = true ↔ s.ref = 0
  opening : s.st = .inOpen ∨ s.st = .inOpenClose → s.queued = true
  closing : s.st = .inClose → s.queued = true ∨ Pc.openCb ∈ s.ths ∨ ph.isSome = true
  opens : s.opens = openedOf s.evs ++ (if s.st = .inOpen ∨ s.st = .inOpenClose then s.openId.toList else [])
  closes : s.closes = closedOf s.evs ++ (if s.st = .inClose ∨ s.st = .inOpenClose then s.closeId.toList else [])
  awakeR : s.st = .open → s.rd = true → s.inf.isSome = true → s.queued = true ∨ (∃ p ∈ s.ths, p.reads = true) ∨ ph = some 0
  awakeW : s.st = .open → s.wr = true → s.queued = true ∨ (∃ p ∈ s.ths, p.writes = true) ∨ ph = some 0 ∨ ph = some 1 ∨ s.rdErr = some .user
  cur : ∀ r, s.inf = some r → s.cur = s.curRead ++ r
  infOpens : s.inf.isSome = true → 1 ≤ s.infOpens
  none0 : s.infOpens = 0 → s.fread = [] ∧ s.curRead = []
  one : s.infOpens ≤ 1 → s.fread = s.curRead

theorem inv_new (a : Nat) (b c d : Bool) : Inv none (F.new a b c d) := by
  constructor <;> simp [F.new, openedOf, closedOf]

theorem inv_deref {s : F} {ph : Nat} (h : Inv (some ph) s) (h0 : s.st ≠ .inClose) (hr : s.st = .open → s.rd = true → s.inf.isSome = true → s.queued = true ∨ (∃ p ∈ s.ths, p.reads = true))
    (hw : s.st = .open → s.wr = true → s.queued = true ∨ (∃ p ∈ s.ths, p.writes = true) ∨ s.rdErr = some .user) :
    ∃ s', deref s = some s' ∧ Inv none s' := by
  have hrf := h.refs
  simp only [Option.isSome_some, if_true] at hrf
  unfold deref
  rw [if_neg (by omega)]
  by_cases h1 : s.ref = 1
  · rw [if_pos h1]
    refine ⟨_, rfl, ?_⟩
    have hq : s.queued = false := by
      cases hq : s.queued with
      | false => rfl
      | true => rw [hq] at hrf; simp at hrf; omega
    have ht : s.ths = [] := by apply List.eq_nil_of_length_eq_zero; omega
    constructor <;> try simp only [Option.isSome_none, Bool.false_eq_true, if_false, Option.some.injEq, reduceCtorEq, or_false, false_and]
    · omega
    · exact h.opening
    · intro e; exact absurd e h0
    · exact h.opens
    · exact h.closes
    · simp
    · intro a b
      rcases hw a b with h | h | h
      · exact Or.inl h
      · exact Or.inr (Or.inl h)
      · exact Or.inr (Or.inr (by simpa using h))
    · simp
    · simp
    · exact h.none0
    · exact h.one
  · rw [if_neg h1]
    refine ⟨_, rfl, ?_⟩
    constructor <;> try simp only [Option.isSome_none, Bool.false_eq_true, if_false, reduceCtorEq, or_false]
    · omega
    · rw [h.gone]; omega
    · exact h.opening
    · intro e; exact absurd e h0
    · exact h.opens
    · exact h.closes
    · exact hr
    · intro a b
      rcases hw a b with h | h | h
      · exact Or.inl h
      · exact Or.inr (Or.inl h)
      · exact Or.inr (Or.inr (by simpa using h))
    · exact h.cur
    · exact h.infOpens
    · exact h.none0
    · exact h.one

theorem inv_call {s : F} {ph : Nat} (h : Inv (some ph) s) {p : Pc} {e : Ev}
    (ho : openedOf [e] = []) (hcl : closedOf [e] = []) (hi : s.st = .inClose → p = .openCb ∨ s.queued = true ∨ Pc.openCb ∈ s.ths)
    (hr : s.st = .open → s.rd = true → s.inf.isSome = true → p.reads = true ∨ s.queued = true ∨ (∃ p ∈ s.ths, p.reads = true))
    (hw : s.st = .open → s.wr = true → p.writes = true ∨ s.queued = true ∨ (∃ p ∈ s.ths, p.writes = true) ∨ s.rdErr = some .user) :
    ∃ s', call s p e = some s' ∧ Inv none s' := by
  refine ⟨_, rfl, ?_⟩
  have hrf := h.refs
  simp only [Option.isSome_some, if_true] at hrf
  constructor <;> try simp only [Option.isSome_none, Bool.false_eq_true, if_false, List.length_append, List.length_singleton, List.mem_append, List.mem_singleton, reduceCtorEq, or_false]
  · omega
  · exact h.gone
  · exact h.opening
  · intro e
    rcases hi e with h | h | h
    · exact Or.inr (Or.inr h.symm)
    · exact Or.inl h
    · exact Or.inr (Or.inl h)
  · rw [openedOf_append, ho, List.append_nil]; exact h.opens
  · rw [closedOf_append, hcl, List.append_nil]; exact h.closes
  · intro a b c
    rcases hr a b c with h | h | ⟨q, h1, h2⟩
    · exact Or.inr ⟨p, Or.inr rfl, h⟩
    · exact Or.inl h
    · exact Or.inr ⟨q, Or.inl h1, h2⟩
  · intro a b
    rcases hw a b with h | h | ⟨q, h1, h2⟩ | h
    · exact Or.inr (Or.inl ⟨p, Or.inr rfl, h⟩)
    · exact Or.inl h
    · exact Or.inr (Or.inl ⟨q, Or.inl h1, h2⟩)
    · exact Or.inr (Or.inr (by simpa using h))
  · exact h.cur
  · exact h.infOpens
  · exact h.none0
  · exact h.one

theorem inv_goTail {s : F} (h : Inv (some 2) s) : ∃ s', goTail s = some s' ∧ Inv none s' := by
  have hr : s.st = .open → s.rd = true → s.inf.isSome = true → s.queued = true ∨ (∃ p ∈ s.ths, p.reads = true) := by
    intro a b c
    rcases h.awakeR a b c with h | h | h
    · exact Or.inl h
    · exact Or.inr h
    · cases h
  have hw : s.st = .open → s.wr = true → s.queued = true ∨ (∃ p ∈ s.ths, p.writes = true) ∨ s.rdErr = some .user := by
    intro a b
    rcases h.awakeW a b with h | h | h | h | h
    · exact Or.inl h
    · exact Or.inr (Or.inl h)
    · cases h
    · cases h
    · exact Or.inr (Or.inr h)
  unfold goTail
  by_cases hc : s.st = .inClose
  · rw [if_pos hc]
    have hcl := h.closes
    have hop := h.opens
    simp only [hc, reduceCtorEq, or_false, or_self, if_true, if_false, List.append_nil] at hcl hop
    cases hid : s.closeId with
    | none =>
      simp only [hid]
      refine inv_deref (ph := 2) ?_ (by simp) (by simp) (by simp)
      rw [hid] at hcl
      constructor <;> try simp only [reduceCtorEq, false_or, or_false, or_self, if_false, List.append_nil, false_implies]
      · exact h.refs
      · exact h.gone
      · exact hop
      · simpa using hcl
      · exact h.cur
      · exact h.infOpens
      · exact h.none0
      · exact h.one
    | some id =>
      simp only [hid, call]
      refine ⟨_, rfl, ?_⟩
      have hrf := h.refs
      simp only [Option.isSome_some, if_true] at hrf
      rw [hid] at hcl
      constructor <;> try simp only [Option.isSome_none, Bool.false_eq_true, reduceCtorEq, false_or, or_false, or_self, if_false, List.append_nil, false_implies, List.length_append, List.length_singleton]
      · omega
      · exact h.gone
      · rw [openedOf_append]; simpa [openedOf] using hop
      · rw [closedOf_append]; simpa [closedOf] using hcl
      · exact h.cur
      · exact h.infOpens
      · exact h.none0
      · exact h.one
  · rw [if_neg hc]
    exact inv_deref h hc hr hw

theorem Inv.to2 {s : F} {n : Nat} (h : Inv (some n) s)
    (hr : s.st = .open → s.rd = true → s.inf.isSome = true → s.queued = true ∨ (∃ p ∈ s.ths, p.reads = true))
    (hw : s.st = .open → s.wr = true → s.queued = true ∨ (∃ p ∈ s.ths, p.writes = true) ∨ s.rdErr = some .user) : Inv (some 2) s :=
  { h with
    refs := h.refs
    closing := h.closing
    awakeR := fun a b c => by
      rcases hr a b c with h | h
      · exact Or.inl h
      · exact Or.inr (Or.inl h)
    awakeW := fun a b => by
      rcases hw a b with h | h | h
      · exact Or.inl h
      · exact Or.inr (Or.inl h)
      · exact Or.inr (Or.inr (Or.inr (Or.inr h))) }

theorem Inv.to1 {s : F} {n : Nat} (h : Inv (some n) s)
    (hr : s.st = .open → s.rd = true → s.inf.isSome = true → s.queued = true ∨ (∃ p ∈ s.ths, p.reads = true)) : Inv (some 1) s :=
  { h with
    refs := h.refs
    closing := h.closing
    awakeR := fun a b c => by
      rcases hr a b c with h | h
      · exact Or.inl h
      · exact Or.inr (Or.inl h)
    awakeW := fun _ _ => Or.inr (Or.inr (Or.inr (Or.inl rfl))) }

theorem Inv.r1 {s : F} (h : Inv (some 1) s) : s.st = .open → s.rd = true → s.inf.isSome = true → s.queued = true ∨ (∃ p ∈ s.ths, p.reads = true) := by
  intro a b c
  rcases h.awakeR a b c with h | h | h
  · exact Or.inl h
  · exact Or.inr h
  · cases h

theorem inv_goWrite {s : F} (h : Inv (some 1) s) : ∃ s', goWrite s = some s' ∧ Inv none s' := by
  unfold goWrite
  by_cases hc : s.st = .open ∧ s.wr = true
  · rw [if_pos hc]
    refine inv_call h rfl rfl ?_ (fun a b c => Or.inr (h.r1 a b c)) (fun _ _ => Or.inl rfl)
    intro e; rw [hc.1] at e; cases e
  · rw [if_neg hc]
    exact inv_goTail (h.to2 h.r1 fun a b => absurd ⟨a, b⟩ hc)

theorem inv_fillBuf {s : F} (h : Inv (some 0) s) (r : Rd) : Inv (some 0) (fillBuf s r) ∧ (fillBuf s r).st = s.st := by
  unfold fillBuf
  by_cases hb : s.buf = [] ∧ s.rdErr = none
  · rw [if_pos hb]
    cases r with
    | fail => exact ⟨{ h with refs := h.refs, awakeR := by simp, awakeW := fun _ _ => Or.inr (Or.inr (Or.inl rfl)) }, rfl⟩
    | ok k =>
      dsimp only
      by_cases hn : min (max k 1) (min s.maxRead (s.inf.getD []).length) = 0
      · rw [if_pos hn]
        exact ⟨{ h with refs := h.refs, awakeR := by simp, awakeW := fun _ _ => Or.inr (Or.inr (Or.inl rfl)) }, rfl⟩
      · rw [if_neg hn]
        cases hi : s.inf with
        | none => rw [hi] at hn; simp at hn
        | some rest =>
          simp only [Option.getD_some]
          generalize min (max k 1) (min s.maxRead rest.length) = n
          refine ⟨{ h with refs := h.refs, awakeR := fun _ _ _ => Or.inr (Or.inr rfl), awakeW := fun _ _ => Or.inr (Or.inr (Or.inl rfl)), cur := ?_, infOpens := ?_, none0 := ?_, one := ?_ }, trivial⟩
          · intro r e
            simp only [Option.some.injEq] at e
            rw [← e]
            have := h.cur rest hi
            dsimp only
            rw [this, List.append_assoc, List.take_append_drop]
          · intro _; exact h.infOpens (by rw [hi]; rfl)
          · intro e
            have := h.infOpens (by rw [hi]; rfl)
            have e : s.infOpens = 0 := e
            omega
          · intro e
            have := h.one e
            dsimp only
            rw [this]
  · rw [if_neg hb]; exact ⟨h, rfl⟩

theorem inv_goRead {s : F} (h : Inv (some 0) s) (r : Rd) : ∃ s', goRead s r = some s' ∧ Inv none s' := by
  unfold goRead
  by_cases hc : s.st = .open ∧ (s.inf.isSome = true ∨ s.rdErr.isSome = true) ∧ s.rd = true
  · rw [if_pos hc]
    obtain ⟨h1, h2⟩ := inv_fillBuf h r
    dsimp only
    split
    · apply inv_goWrite
      exact { h1 with refs := h1.refs, awakeR := by simp, awakeW := fun _ _ => Or.inr (Or.inr (Or.inr (Or.inl rfl))) }
    · refine inv_call h1 rfl rfl ?_ (fun _ _ _ => Or.inl rfl) (fun _ _ => Or.inl rfl)
      intro e; rw [h2, hc.1] at e; cases e
  · rw [if_neg hc]
    apply inv_goWrite
    apply h.to1
    intro a b c
    exact absurd ⟨a, Or.inl c, b⟩ hc

theorem inv_startRun {s : F} (h : Inv none s) (hq : s.queued = true) (r : Rd) : ∃ s', startRun { s with queued := false } r = some s' ∧ Inv none s' := by
  unfold startRun
  have hrf := h.refs
  rw [hq] at hrf
  simp only [Option.isSome_none, Bool.false_eq_true, if_true, if_false] at hrf
  have hop := h.opens
  have hcl := h.closes
  by_cases h2 : s.st = .inOpenClose
  · simp only [h2, reduceCtorEq, or_true, if_true] at hop hcl ⊢
    cases hid : s.openId with
    | some id =>
      rw [hid] at hop
      simp only [call]
      refine ⟨_, rfl, ?_⟩
      constructor <;> try simp only [Option.isSome_none, Bool.false_eq_true, reduceCtorEq, false_or, or_false, or_self, if_true, if_false, List.append_nil, false_implies, List.length_append, List.length_singleton]
      · omega
      · exact h.gone
      · simp
      · rw [openedOf_append]; simpa [openedOf] using hop
      · rw [closedOf_append]; simpa [closedOf] using hcl
      · exact h.cur
      · exact h.infOpens
      · exact h.none0
      · exact h.one
    | none =>
      rw [hid] at hop
      apply inv_goRead
      constructor <;> try simp only [Option.isSome_some, Bool.false_eq_true, reduceCtorEq, false_or, or_false, or_self, or_true, if_true, if_false, List.append_nil, false_implies]
      · omega
      · exact h.gone
      · simp
      · simpa using hop
      · exact hcl
      · exact h.cur
      · exact h.infOpens
      · exact h.none0
      · exact h.one
  · by_cases h1 : s.st = .inOpen
    · simp only [h1, reduceCtorEq, or_false, or_self, if_true, if_false] at hop hcl ⊢
      cases hid : s.openId with
      | some id =>
        rw [hid] at hop
        simp only [call]
        refine ⟨_, rfl, ?_⟩
        constructor <;> try simp only [Option.isSome_none, Bool.false_eq_true, reduceCtorEq, false_or, or_false, or_self, if_true, if_false, List.append_nil, false_implies, List.length_append, List.length_singleton]
        · omega
        · exact h.gone
        · rw [openedOf_append]; simpa [openedOf] using hop
        · rw [closedOf_append]; simpa [closedOf] using hcl
        · intro _ _ _; exact ⟨.openCb, by simp, rfl⟩
        · intro _ _; exact Or.inl ⟨.openCb, by simp, rfl⟩
        · exact h.cur
        · exact h.infOpens
        · exact h.none0
        · exact h.one
      | none =>
        rw [hid] at hop
        apply inv_goRead
        constructor <;> try simp only [Option.isSome_some, Bool.false_eq_true, reduceCtorEq, false_or, or_false, or_self, or_true, true_or, if_true, if_false, List.append_nil, false_implies, implies_true]
        · omega
        · exact h.gone
        · simpa using hop
        · simpa using hcl
        · exact h.cur
        · exact h.infOpens
        · exact h.none0
        · exact h.one
    · simp only [h1, h2, or_self, if_false] at hop ⊢
      apply inv_goRead
      constructor <;> try simp only [Option.isSome_some, Bool.false_eq_true, h1, h2, false_or, or_false, or_self, or_true, true_or, if_true, if_false, false_implies, implies_true]
      · omega
      · exact h.gone
      · exact hop
      · simpa [h2] using hcl
      · exact h.cur
      · exact h.infOpens
      · exact h.none0
      · exact h.one

theorem inv_resume {s : F} (h : Inv none s) {i : Nat} {p : Pc} (hp : s.ths[i]? = some p) (err : Bool) (count : Nat) (r : Rd) :
    ∃ s', resume { s with ths := s.ths.eraseIdx i } p err count r = some s' ∧ Inv none s' := by
  obtain ⟨hi, hpi⟩ := List.getElem?_eq_some_iff.1 hp
  have hlen : (s.ths.eraseIdx i).length = s.ths.length - 1 := by simp [List.length_eraseIdx, hi]
  have hmem : ∀ q, q ∈ s.ths → q = p ∨ q ∈ s.ths.eraseIdx i := by
    intro q hq
    obtain ⟨j, hj, e⟩ := List.getElem_of_mem hq
    by_cases hji : j = i
    · left; subst hji; rw [← e, hpi]
    · right
      rw [List.mem_eraseIdx_iff_getElem]
      exact ⟨j, hj, hji, e⟩
  have hrf := h.refs
  simp only [Option.isSome_none, Bool.false_eq_true, if_false] at hrf
  have base : ∀ n, (p.reads = true → n = 0) → (p.writes = true → n = 0 ∨ n = 1) → Inv (some n) { s with ths := s.ths.eraseIdx i } := by
    intro n h0 h1
    refine { h with refs := ?_, closing := ?_, awakeR := ?_, awakeW := ?_ }
    · simp only [Option.isSome_some, if_true, hlen]; omega
    · intro _; right; right; rfl
    · intro a b c
      rcases h.awakeR a b c with h | ⟨q, hq, hr⟩ | h
      · exact Or.inl h
      · rcases hmem q hq with e | e
        · subst e; exact Or.inr (Or.inr (by rw [h0 hr]))
        · exact Or.inr (Or.inl ⟨q, e, hr⟩)
      · cases h
    · intro a b
      rcases h.awakeW a b with h | ⟨q, hq, hr⟩ | h | h | h
      · exact Or.inl h
      · rcases hmem q hq with e | e
        · subst e
          rcases h1 hr with e | e
          · exact Or.inr (Or.inr (Or.inl (by rw [e])))
          · exact Or.inr (Or.inr (Or.inr (Or.inl (by rw [e]))))
        · exact Or.inr (Or.inl ⟨q, e, hr⟩)
      · cases h
      · cases h
      · exact Or.inr (Or.inr (Or.inr (Or.inr h)))
  unfold resume
  cases p with
  | openCb => exact inv_goRead (base 0 (fun _ => rfl) (fun _ => Or.inl rfl)) r
  | readCb d =>
    cases err with
    | true =>
      simp only [if_true]
      apply inv_goWrite
      exact { base 0 (fun _ => rfl) (fun _ => Or.inl rfl) with awakeR := by simp, awakeW := fun _ _ => Or.inr (Or.inr (Or.inr (Or.inl rfl))) }
    | false =>
      simp only [Bool.false_eq_true, if_false]
      apply inv_goRead
      unfold consume
      split
      · split
        · exact { base 0 (fun _ => rfl) (fun _ => Or.inl rfl) with awakeR := fun _ _ _ => Or.inr (Or.inr rfl), awakeW := fun _ _ => Or.inr (Or.inr (Or.inl rfl)) }
        · exact { base 0 (fun _ => rfl) (fun _ => Or.inl rfl) with awakeR := fun _ _ _ => Or.inr (Or.inr rfl), awakeW := fun _ _ => Or.inr (Or.inr (Or.inl rfl)) }
      · exact { base 0 (fun _ => rfl) (fun _ => Or.inl rfl) with awakeR := fun _ _ _ => Or.inr (Or.inr rfl), awakeW := fun _ _ => Or.inr (Or.inr (Or.inl rfl)) }
  | writeCb =>
    cases err with
    | true =>
      simp only [if_true]
      apply inv_goTail
      exact { base 1 (by simp [Pc.reads]) (fun _ => Or.inr rfl) with awakeR := by simp, awakeW := fun _ _ => Or.inr (Or.inr (Or.inr (Or.inr rfl))) }
    | false =>
      simp only [Bool.false_eq_true, if_false]
      exact inv_goWrite (base 1 (by simp [Pc.reads]) (fun _ => Or.inr rfl))
  | closeCb =>
    have hb := base 2 (by simp [Pc.reads]) (by simp [Pc.writes])
    have hst : s.st = .inClose → s.queued = true ∨ Pc.openCb ∈ s.ths.eraseIdx i := by
      intro e
      rcases h.closing e with h | h | h
      · exact Or.inl h
      · rcases hmem _ h with e | e
        · cases e
        · exact Or.inr e
      · cases h
    by_cases hc : s.st = .inClose
    · -- another operation has the close to do
      have hrf := hb.refs
      simp only [Option.isSome_some, if_true] at hrf
      have h2 : 2 ≤ s.ref := by
        rcases hst hc with e | e
        · rw [e] at hrf; simp only [if_true] at hrf; omega
        · have := List.length_pos_of_mem e
          omega
      dsimp only
      unfold deref
      dsimp only
      rw [if_neg (by omega), if_neg (by omega)]
      refine ⟨_, rfl, { hb with refs := ?_, gone := ?_, closing := ?_, awakeR := ?_, awakeW := ?_ }⟩
      · simp only [Option.isSome_none, Bool.false_eq_true, if_false]; omega
      · rw [h.gone]; dsimp only; omega
      · intro _
        rcases hst hc with e | e
        · exact Or.inl e
        · exact Or.inr (Or.inl e)
      · intro a; rw [hc] at a; cases a
      · intro a; rw [hc] at a; cases a
    · refine inv_deref hb hc ?_ ?_
      · intro a b c
        rcases hb.awakeR a b c with h | h | h
        · exact Or.inl h
        · exact Or.inr h
        · cases h
      · intro a b
        rcases hb.awakeW a b with h | h | h | h | h
        · exact Or.inl h
        · exact Or.inr (Or.inl h)
        · cases h
        · cases h
        · exact Or.inr (Or.inr h)

/-- What starting the operation gives. -/
theorem startOp_spec {s : F} (h : 0 < s.ref) :
    startOp s = some { s with queued := true, ref := if s.queued then s.ref else s.ref + 1 } := by
  unfold startOp
  cases hq : s.queued with
  | true => simp [← hq]
  | false => simp [Nat.pos_iff_ne_zero.1 h]

theorem inv_user {s : F} (h : Inv none s) (hf : s.freed = false) (o : Op) : ∃ s', user s o = some s' ∧ Inv none s' := by
  have hrf := h.refs
  simp only [Option.isSome_none, Bool.false_eq_true, if_false, hf] at hrf
  have hpos : 0 < s.ref := by omega
  have qref : (if s.queued then s.ref else s.ref + 1) = 1 + 1 + s.ths.length := by
    cases hq : s.queued <;> rw [hq] at hrf <;> simp only [Bool.false_eq_true, if_true, if_false] at hrf ⊢ <;> omega
  have hg : s.gone = false := by
    cases hg : s.gone with
    | false => rfl
    | true => have := h.gone.1 hg; omega
  cases o with
  | run r => exact ⟨s, rfl, h⟩
  | ret a b c d => exact ⟨s, rfl, h⟩
  | write sg k =>
    refine ⟨_, rfl, ?_⟩
    unfold write
    split
    · exact h
    · split
      · exact h
      · split
        · exact h
        · dsimp only
          split
          · exact h
          · exact { h with refs := h.refs }
  | setRead b =>
    show ∃ s', setRead s b = some s' ∧ _
    unfold setRead
    split
    · exact ⟨s, rfl, h⟩
    · split
      · rw [startOp_spec (by exact hpos)]
        refine ⟨_, rfl, { h with refs := ?_, gone := ?_, opening := fun _ => rfl, closing := fun _ => Or.inl rfl, awakeR := fun _ _ _ => Or.inl rfl, awakeW := fun _ _ => Or.inl rfl }⟩
        · simp [hf, qref]
        · simp only [hg, qref]; simp
      · rename_i hn
        refine ⟨_, rfl, { h with refs := h.refs, awakeR := ?_ }⟩
        intro a c d
        have c : b = true := c
        exact absurd ⟨c, a, d⟩ hn
  | setWrite b =>
    show ∃ s', setWrite s b = some s' ∧ _
    unfold setWrite
    split
    · exact ⟨s, rfl, h⟩
    · split
      · rw [startOp_spec (by exact hpos)]
        refine ⟨_, rfl, { h with refs := ?_, gone := ?_, opening := fun _ => rfl, closing := fun _ => Or.inl rfl, awakeR := fun _ _ _ => Or.inl rfl, awakeW := fun _ _ => Or.inl rfl }⟩
        · simp [hf, qref]
        · simp only [hg, qref]; simp
      · rename_i hn
        refine ⟨_, rfl, { h with refs := h.refs, awakeW := ?_ }⟩
        intro a c
        have c : b = true := c
        exact absurd ⟨c, a⟩ hn
  | «open» id d ok =>
    show ∃ s', fopen s id d ok = some s' ∧ _
    unfold fopen
    split
    · exact ⟨s, rfl, h⟩
    · rename_i hst
      have hst : s.st = .closed := by simpa using hst
      have hop := h.opens
      have hcl := h.closes
      simp only [hst, reduceCtorEq, or_self, if_false, List.append_nil] at hop hcl
      split
      · exact ⟨s, rfl, h⟩
      · rename_i hd
        -- the state after the input file
        have hin : ∃ t : F, t = (if s.infile then { s with inf := d, cur := d.getD [], curRead := [], infOpens := s.infOpens + 1, lost := s.lost + if s.inf.isSome then 1 else 0 } else s) := ⟨_, rfl⟩
        obtain ⟨t, ht⟩ := hin
        have key : Inv none t ∧ t.st = .closed ∧ t.ref = s.ref ∧ t.queued = s.queued ∧ t.ths = s.ths ∧ t.freed = s.freed ∧ t.gone = s.gone ∧ t.opens = openedOf t.evs ∧ t.closes = closedOf t.evs := by
          subst ht
          by_cases hi : s.infile = true
          · rw [if_pos hi]
            obtain ⟨dd, hdd⟩ : ∃ x, d = some x := by
              cases d with
              | none => exact absurd ⟨hi, rfl⟩ hd
              | some x => exact ⟨x, rfl⟩
            subst hdd
            refine ⟨{ h with refs := h.refs, awakeR := ?_, awakeW := ?_, cur := ?_, infOpens := ?_, none0 := ?_, one := ?_ }, hst, rfl, rfl, rfl, rfl, rfl, hop, hcl⟩
            · intro a; rw [hst] at a; cases a
            · intro a; rw [hst] at a; cases a
            · intro r e; simp only [Option.some.injEq] at e; simp [e]
            · intro _; dsimp only; omega
            · intro e; dsimp only at e; omega
            · intro e; dsimp only at e; exact (h.none0 (by omega)).1
          · rw [if_neg hi]; exact ⟨h, hst, rfl, rfl, rfl, rfl, rfl, hop, hcl⟩
        rw [← ht]
        obtain ⟨k1, k2, k3, k4, k5, k6, k7, k8, k9⟩ := key
        dsimp only
        split
        · exact ⟨t, rfl, k1⟩
        · rw [startOp_spec (by split <;> (dsimp only; omega))]
          refine ⟨_, rfl, ?_⟩
          split
          · constructor <;> try simp only [k3, k4, k5, k6, hf, qref, reduceCtorEq, Option.isSome_none, Bool.false_eq_true, true_or, or_true, or_false, or_self, if_true, if_false, false_implies, implies_true, List.append_nil]
            · omega
            · rw [k7, hg]; simp
            · rw [k8]
            · exact k9
            · exact k1.cur
            · exact k1.infOpens
            · exact k1.none0
            · exact k1.one
          · constructor <;> try simp only [k3, k4, k5, k6, hf, qref, reduceCtorEq, Option.isSome_none, Bool.false_eq_true, true_or, or_true, or_false, or_self, if_true, if_false, false_implies, implies_true, List.append_nil]
            · omega
            · rw [k7, hg]; simp
            · rw [k8]
            · exact k9
            · exact k1.cur
            · exact k1.infOpens
            · exact k1.none0
            · exact k1.one
  | close id =>
    show ∃ s', fclose s id = some s' ∧ _
    unfold fclose
    split
    · exact ⟨s, rfl, h⟩
    · rename_i hst
      have hst : s.st = .open ∨ s.st = .inOpen := by
        cases e : s.st <;> simp [e] at hst <;> simp
      rw [startOp_spec (by exact hpos)]
      refine ⟨_, rfl, ?_⟩
      have hop := h.opens
      have hcl := h.closes
      rcases hst with hst | hst
      · simp only [hst, reduceCtorEq, or_false, or_self, if_true, if_false, List.append_nil] at hop hcl ⊢
        constructor <;> try simp only [hf, qref, reduceCtorEq, Option.isSome_none, Bool.false_eq_true, true_or, or_true, or_false, or_self, if_true, if_false, false_implies, implies_true, List.append_nil]
        · omega
        · rw [hg]; simp
        · exact hop
        · rw [hcl]
        · exact h.none0
        · exact h.one
      · simp only [hst, reduceCtorEq, true_or, or_false, or_self, if_true, if_false, List.append_nil] at hop hcl ⊢
        constructor <;> try simp only [hf, qref, reduceCtorEq, Option.isSome_none, Bool.false_eq_true, true_or, or_true, or_false, or_self, if_true, if_false, false_implies, implies_true, List.append_nil]
        · omega
        · rw [hg]; simp
        · exact hop
        · rw [hcl]
        · exact h.none0
        · exact h.one
  | free =>
    show ∃ s', ffree s = some s' ∧ _
    unfold ffree
    rw [if_neg (by omega)]
    unfold deref
    dsimp only
    rw [if_neg (by omega)]
    by_cases h1 : s.ref = 1
    · rw [if_pos h1, if_pos h1]
      have hq : s.queued = false := by
        cases hq : s.queued with
        | false => rfl
        | true => rw [hq] at hrf; simp at hrf; omega
      have ht : s.ths = [] := by apply List.eq_nil_of_length_eq_zero; omega
      have hno : s.st ≠ .inOpen ∧ s.st ≠ .inOpenClose ∧ s.st ≠ .inClose := by
        refine ⟨fun e => ?_, fun e => ?_, fun e => ?_⟩
        · have := h.opening (Or.inl e); rw [hq] at this; cases this
        · have := h.opening (Or.inr e); rw [hq] at this; cases this
        · rcases h.closing e with h | h | h
          · rw [hq] at h; cases h
          · rw [ht] at h; cases h
          · cases h
      have hop := h.opens
      have hcl := h.closes
      simp only [hno.1, hno.2.1, hno.2.2, or_self, if_false, List.append_nil] at hop hcl
      refine ⟨_, rfl, ?_⟩
      constructor <;> try simp only [hq, ht, reduceCtorEq, Option.isSome_none, Bool.false_eq_true, or_self, if_true, if_false, false_implies, implies_true, List.append_nil, List.length_nil]
      · exact hop
      · exact hcl
      · exact h.none0
      · exact h.one
    · rw [if_neg h1]
      refine ⟨_, rfl, ?_⟩
      simp only [h1, if_false]
      refine { h with refs := ?_, gone := ?_ }
      · simp only [Option.isSome_none, Bool.false_eq_true, if_true, if_false]; omega
      · rw [hg]; dsimp only; simp; omega

theorem inv_step {s : F} (h : Inv none s) (o : Op) : ∃ s', step s o = some s' ∧ Inv none s' := by
  have huser : ∀ o, (match o with | .run _ => False | .ret _ _ _ _ => False | _ => True) →
      step s o = (if s.freed then some s else if s.gone then none else user s o) := by
    intro o ho; cases o <;> first | rfl | exact ho.elim
  have hgone : s.gone = true → s.freed = true ∧ s.queued = false ∧ s.ths = [] := by
    intro hg
    have h0 := h.gone.1 hg
    have hrf := h.refs
    rw [h0] at hrf
    simp only [Option.isSome_none, Bool.false_eq_true, if_false] at hrf
    refine ⟨?_, ?_, List.eq_nil_of_length_eq_zero (by omega)⟩
    · cases hf : s.freed with
      | true => rfl
      | false => rw [hf] at hrf; simp at hrf; omega
    · cases hf : s.queued with
      | false => rfl
      | true => rw [hf] at hrf; simp at hrf; omega
  have hu : ∀ o, (match o with | .run _ => False | .ret _ _ _ _ => False | _ => True) → ∃ s', step s o = some s' ∧ Inv none s' := by
    intro o ho
    rw [huser o ho]
    cases hf : s.freed with
    | true => exact ⟨s, rfl, h⟩
    | false =>
      have hg : s.gone = false := by
        cases hg : s.gone with
        | false => rfl
        | true => have := (hgone hg).1; rw [hf] at this; cases this
      simp only [Bool.false_eq_true, if_false, hg]
      exact inv_user h hf o
  cases o with
  | run r =>
    rw [step]
    cases hq : s.queued with
    | false => exact ⟨s, by simp, h⟩
    | true =>
      have hg : s.gone = false := by
        cases hg : s.gone with
        | false => rfl
        | true => have := (hgone hg).2.1; rw [hq] at this; cases this
      rw [if_pos rfl, if_neg (by simp [hg])]
      exact inv_startRun h hq r
  | ret i e c r =>
    rw [step]
    cases hp : s.ths[i]? with
    | none => exact ⟨s, rfl, h⟩
    | some p =>
      have hg : s.gone = false := by
        cases hg : s.gone with
        | false => rfl
        | true => have := (hgone hg).2.2; rw [this] at hp; simp at hp
      simp only [hg, Bool.false_eq_true, if_false]
      have := inv_resume h hp e c r
      simpa only [hg] using this
  | _ => exact hu _ trivial

theorem inv_run {s : F} (ops : List Op) (h : Inv none s) : ∃ s', run s ops = some s' ∧ Inv none s' := by
  induction ops generalizing s with
  | nil => exact ⟨s, rfl, h⟩
  | cons o os ih =>
    obtain ⟨s1, e1, i1⟩ := inv_step h o
    obtain ⟨s2, e2, i2⟩ := ih i1
    exact ⟨s2, by rw [run, e1]; exact e2, i2⟩

/-! ### One operation at a time -/

/-- What holds if the operations do not overlap. -/
structure Ser (s : F) : Prop where
  data : s.fread = s.got ++ s.buf
  one : s.ths.length ≤ 1
  off : ∀ d, Pc.readCb d ∈ s.ths → d = s.buf
  infOpens : s.inf.isSome = true → 1 ≤ s.infOpens
  cur : ∀ r, s.inf = some r → s.cur = s.curRead ++ r
  eof : (s.rdErr = some .remclose ∨ ∃ d, Ev.read d (some .remclose) ∈ s.evs) →
    s.rdErr ≠ none ∧ s.buf = [] ∧ 1 ≤ s.infOpens ∧ (0 < s.maxRead → s.infOpens ≤ 1 → s.curRead = s.cur)

theorem ser_new (a : Nat) (b c d : Bool) : Ser (F.new a b c d) := by
  constructor <;> simp [F.new]

theorem ser_deref {s s' : F} (h : Ser s) (e : deref s = some s') : Ser s' := by
  unfold deref at e
  split at e
  · cases e
  · split at e <;> cases e
    · exact { h with data := h.data, infOpens := by simp, cur := by simp }
    · exact { h with data := h.data }

theorem ser_call {s s' : F} (h : Ser s) (ht : s.ths = []) {p : Pc} {e : Ev} (hp : ∀ d, p = .readCb d → d = s.buf)
    (he : ∀ d, e = .read d (some .remclose) → s.rdErr = some .remclose) (hc : call s p e = some s') : Ser s' := by
  cases hc
  refine { h with data := h.data, one := by simp [ht], off := ?_, eof := ?_ }
  · intro d hd
    simp only [ht, List.nil_append, List.mem_singleton] at hd
    exact hp d hd.symm
  · intro hd
    apply h.eof
    rcases hd with hd | ⟨d, hd⟩
    · exact Or.inl hd
    · simp only [List.mem_append, List.mem_singleton] at hd
      rcases hd with hd | hd
      · exact Or.inr ⟨d, hd⟩
      · exact Or.inl (he d hd.symm)

theorem ser_goTail {s s' : F} (h : Ser s) (ht : s.ths = []) (e : goTail s = some s') : Ser s' := by
  unfold goTail at e
  split at e
  · dsimp only at e
    split at e
    · exact ser_call (s := { s with st := .closed }) { h with data := h.data } ht (by simp) (by simp) e
    · exact ser_deref (s := { s with st := .closed }) { h with data := h.data } e
  · exact ser_deref h e

theorem ser_goWrite {s s' : F} (h : Ser s) (ht : s.ths = []) (e : goWrite s = some s') : Ser s' := by
  unfold goWrite at e
  split at e
  · exact ser_call h ht (by simp) (by simp) e
  · exact ser_goTail h ht e

theorem ser_fillBuf {s : F} (h : Ser s) (ht : s.ths = []) (hi : s.inf.isSome = true ∨ s.rdErr.isSome = true) (r : Rd) : Ser (fillBuf s r) := by
  unfold fillBuf
  by_cases hb : s.buf = [] ∧ s.rdErr = none
  · rw [if_pos hb]
    have hnev : ¬∃ d, Ev.read d (some .remclose) ∈ s.evs := fun he => (h.eof (Or.inr he)).1 hb.2
    have hi : s.inf.isSome = true := by
      rcases hi with hi | hi
      · exact hi
      · rw [hb.2] at hi; cases hi
    cases r with
    | fail =>
      refine { h with data := h.data, eof := ?_ }
      intro he
      rcases he with he | he
      · simp at he
      · exact absurd he hnev
    | ok k =>
      dsimp only
      cases hin : s.inf with
      | none => rw [hin] at hi; cases hi
      | some rest =>
        simp only [Option.getD_some]
        split
        · rename_i hn
          refine { h with data := h.data, infOpens := fun _ => h.infOpens hi, cur := ?_, eof := ?_ }
          · intro r e; exact h.cur r (hin.trans e)
          · intro _
            refine ⟨by simp, hb.1, h.infOpens hi, fun hm _ => ?_⟩
            have hr : rest = [] := by
              apply List.eq_nil_of_length_eq_zero
              have hm : 0 < s.maxRead := hm
              omega
            have := h.cur rest hin
            rw [hr, List.append_nil] at this
            exact this.symm
        · rename_i hn
          generalize min (max k 1) (min s.maxRead rest.length) = n
          refine { h with data := ?_, off := by simp [ht], infOpens := fun _ => h.infOpens hi, cur := ?_, eof := ?_ }
          · dsimp only; rw [h.data, hb.1, List.append_nil]
          · intro r e
            simp only [Option.some.injEq] at e
            have := h.cur rest hin
            dsimp only
            rw [this, List.append_assoc, ← e, List.take_append_drop]
          · intro he
            rcases he with he | he
            · have he : s.rdErr = some .remclose := he
              rw [hb.2] at he; cases he
            · exact absurd he hnev
  · rw [if_neg hb]; exact h

theorem fillBuf_ths (s : F) (r : Rd) : (fillBuf s r).ths = s.ths := by
  unfold fillBuf
  split
  · split
    · rfl
    · dsimp only; split <;> rfl
  · rfl

theorem ser_goRead {s s' : F} (h : Ser s) (ht : s.ths = []) (r : Rd) (e : goRead s r = some s') : Ser s' := by
  unfold goRead at e
  split at e
  · rename_i hc
    have hf : Ser (fillBuf s r) := ser_fillBuf h ht hc.2.1 r
    have ht' : (fillBuf s r).ths = [] := by rw [fillBuf_ths, ht]
    dsimp only at e
    split at e
    · rename_i he
      have hb := (hf.eof (Or.inl he.2)).2.1
      refine ser_goWrite (s := { fillBuf s r with rd := false, buf := [] }) { hf with data := ?_, off := by simp [ht'], eof := ?_ } ht' e
      · rw [hf.data, hb]
      · intro _
        obtain ⟨a, b, c⟩ := hf.eof (Or.inl he.2)
        exact ⟨a, rfl, c⟩
    · refine ser_call hf ht' ?_ ?_ e
      · intro d e; cases e; rfl
      · intro d e; simp only [Ev.read.injEq] at e; exact e.2
  · exact ser_goWrite h ht e

theorem ser_startRun {s s' : F} (h : Ser s) (ht : s.ths = []) (r : Rd) (e : startRun s r = some s') : Ser s' := by
  unfold startRun at e
  split at e
  · dsimp only at e
    split at e
    · exact ser_call (by exact { h with data := h.data }) (by exact ht) (by simp) (by simp) e
    · exact ser_goRead (by exact { h with data := h.data }) (by exact ht) r e
  · exact ser_goRead h ht r e

theorem ser_resume {s s' : F} (h : Ser s) {i : Nat} {p : Pc} (hp : s.ths[i]? = some p) {err : Bool} {count : Nat} {r : Rd}
    (e : resume { s with ths := s.ths.eraseIdx i } p err count r = some s') : Ser s' := by
  obtain ⟨hi, hpi⟩ := List.getElem?_eq_some_iff.1 hp
  have hlen : (s.ths.eraseIdx i).length = s.ths.length - 1 := by simp [List.length_eraseIdx, hi]
  have hnil : s.ths.eraseIdx i = [] := by
    apply List.eq_nil_of_length_eq_zero
    have := h.one
    omega
  have hmem : p ∈ s.ths := List.mem_of_getElem? hp
  have hb : Ser { s with ths := s.ths.eraseIdx i } := { h with data := h.data, one := by rw [hnil]; simp, off := by rw [hnil]; simp }
  unfold resume at e
  cases p with
  | openCb => exact ser_goRead hb hnil r e
  | closeCb => exact ser_deref hb e
  | writeCb =>
    dsimp only at e
    split at e
    · refine ser_goTail ?_ ?_ e
      rotate_left
      · exact hnil
      refine { hb with data := hb.data, eof := ?_ }
      intro he
      rcases he with he | he
      · simp at he
      · exact ⟨by simp, (hb.eof (Or.inr he)).2⟩
    · exact ser_goWrite hb hnil e
  | readCb d =>
    dsimp only at e
    have hd := h.off d hmem
    subst hd
    split at e
    · refine ser_goWrite ?_ ?_ e
      rotate_left
      · exact hnil
      refine { hb with data := hb.data, eof := ?_ }
      intro he
      rcases he with he | he
      · simp at he
      · exact ⟨by simp, (hb.eof (Or.inr he)).2⟩
    · refine ser_goRead ?_ ?_ r e
      · unfold consume
        split
        · split
          · rename_i hc hl
            refine { hb with data := ?_, off := by rw [hnil]; simp, eof := fun he => ?_ }
            · have hl : s.buf.length ≤ count := hl
              show s.fread = (s.got ++ s.buf.take count) ++ []
              rw [List.take_of_length_le hl, List.append_nil]
              exact h.data
            · obtain ⟨a, b, c⟩ := hb.eof he
              exact ⟨a, rfl, c⟩
          · refine { hb with data := ?_, off := by rw [hnil]; simp, eof := fun he => ?_ }
            · show s.fread = (s.got ++ s.buf.take count) ++ s.buf.drop count
              rw [List.append_assoc, List.take_append_drop]
              exact h.data
            · obtain ⟨a, b, c⟩ := hb.eof he
              have b : s.buf = [] := b
              exact ⟨a, by simp [b], c⟩
        · rename_i hc
          refine { hb with data := ?_, off := by rw [hnil]; simp }
          have : count = 0 := by omega
          subst this
          show s.fread = (s.got ++ s.buf.take 0) ++ s.buf
          simpa using h.data
      · unfold consume
        split
        · split <;> exact hnil
        · exact hnil

theorem ser_startOp {s s' : F} (h : Ser s) (e : startOp s = some s') : Ser s' := by
  unfold startOp at e
  split at e
  · cases e; exact h
  · split at e
    · cases e
    · cases e; exact { h with data := h.data }

theorem ser_user {s s' : F} (h : Ser s) (o : Op) (e : user s o = some s') : Ser s' := by
  cases o with
  | run r => cases e; exact h
  | ret a b c d => cases e; exact h
  | write sg k =>
    have e : some (write s sg k).2 = some s' := e
    simp only [Option.some.injEq] at e
    rw [← e]
    unfold write
    split
    · exact h
    · split
      · exact h
      · split
        · exact h
        · dsimp only
          split
          · exact h
          · exact { h with data := h.data }
  | setRead b =>
    have e : setRead s b = some s' := e
    unfold setRead at e
    split at e
    · cases e; exact h
    · split at e
      · exact ser_startOp (s := { s with rd := b }) { h with data := h.data } e
      · cases e; exact { h with data := h.data }
  | setWrite b =>
    have e : setWrite s b = some s' := e
    unfold setWrite at e
    split at e
    · cases e; exact h
    · split at e
      · exact ser_startOp (s := { s with wr := b }) { h with data := h.data } e
      · cases e; exact { h with data := h.data }
  | «open» id d ok =>
    have e : fopen s id d ok = some s' := e
    unfold fopen at e
    split at e
    · cases e; exact h
    · split at e
      · cases e; exact h
      · rename_i hd
        have key : Ser (if s.infile then { s with inf := d, cur := d.getD [], curRead := [], infOpens := s.infOpens + 1, lost := s.lost + if s.inf.isSome then 1 else 0 } else s) := by
          split
          · rename_i hi
            refine { h with data := h.data, infOpens := fun _ => ?_, cur := ?_, eof := fun he => ?_ }
            · dsimp only; omega
            · intro r e
              have e : d = some r := e
              subst e; rfl
            · obtain ⟨a, b, c, _⟩ := h.eof he
              refine ⟨a, b, by dsimp only; omega, fun _ h1 => ?_⟩
              dsimp only at h1
              omega
          · exact h
        generalize (if s.infile then { s with inf := d, cur := d.getD [], curRead := [], infOpens := s.infOpens + 1, lost := s.lost + if s.inf.isSome then 1 else 0 } else s) = t at key e
        dsimp only at e
        split at e
        · cases e; exact key
        · refine ser_startOp (s := _) ?_ e
          split
          · exact { key with data := key.data }
          · exact { key with data := key.data }
  | close id =>
    have e : fclose s id = some s' := e
    unfold fclose at e
    split at e
    · cases e; exact h
    · exact ser_startOp (by exact { h with data := h.data, infOpens := by simp, cur := by simp }) e
  | free =>
    have e : ffree s = some s' := e
    unfold ffree at e
    split at e
    · cases e
    · exact ser_deref (by exact { h with data := h.data }) e

/-- The operation is run only when none is in a callback. -/
def serial (s : F) : List Op → Prop
  | [] => True
  | o :: os => (∀ r, o = .run r → s.ths = []) ∧ ∀ s', step s o = some s' → serial s' os

theorem ser_step {s s' : F} (h : Ser s) (o : Op) (hs : ∀ r, o = .run r → s.ths = []) (e : step s o = some s') : Ser s' := by
  have huser : ∀ o, step s o = (if s.freed then some s else if s.gone then none else user s o) → step s o = some s' → Ser s' := by
    intro o he e
    rw [he] at e
    split at e
    · cases e; exact h
    · split at e
      · cases e
      · exact ser_user h o e
  cases o with
  | run r =>
    rw [step] at e
    split at e
    · split at e
      · cases e
      · exact ser_startRun (s := { s with queued := false }) { h with data := h.data } (hs r rfl) r e
    · cases e; exact h
  | ret i er c r =>
    rw [step] at e
    split at e
    · rename_i hp
      split at e
      · cases e
      · exact ser_resume h hp e
    · cases e; exact h
  | _ => exact huser _ rfl e

theorem ser_run {s s' : F} (ops : List Op) (h : Ser s) (hs : serial s ops) (e : run s ops = some s') : Ser s' := by
  induction ops generalizing s with
  | nil => cases e; exact h
  | cons o os ih =>
    rw [run] at e
    cases e1 : step s o with
    | none => rw [e1] at e; cases e
    | some s1 => rw [e1] at e; exact ih (ser_step h o hs.1 e1) (hs.2 s1 e1) e

/-! ### Descriptors -/

/-- No descriptor was lost; they are open only in an open gensio. -/
structure Fd (s : F) : Prop where
  lost : s.lost = 0
  shut : s.st ≠ .open → s.st ≠ .inOpen → s.inf = none ∧ s.outf = false
  freed : s.freed = true → s.st ≠ .open ∧ s.st ≠ .inOpen

theorem fd_deref {s s' : F} (h : Fd s) (hr : s.freed = false → 2 ≤ s.ref) (e : deref s = some s') : Fd s' := by
  unfold deref at e
  split at e
  · cases e
  · split at e <;> cases e
    · have hf : s.freed = true := by
        cases hf : s.freed with
        | true => rfl
        | false => have := hr hf; omega
      obtain ⟨a, b⟩ := h.freed hf
      obtain ⟨c, d⟩ := h.shut a b
      exact { lost := by simp [c, d, h.lost], shut := by simp, freed := h.freed }
    · exact { lost := h.lost, shut := h.shut, freed := h.freed }

theorem fd_call {s s' : F} (h : Fd s) {p : Pc} {e : Ev} (hc : call s p e = some s') : Fd s' := by
  cases hc
  exact { lost := h.lost, shut := h.shut, freed := h.freed }

theorem fd_goTail {s s' : F} (h : Fd s) (hr : s.freed = false → 2 ≤ s.ref) (e : goTail s = some s') : Fd s' := by
  unfold goTail at e
  split at e
  · rename_i hst
    have hs := h.shut (by rw [hst]; simp) (by rw [hst]; simp)
    have h' : Fd { s with st := .closed } := { lost := h.lost, shut := fun _ _ => hs, freed := by simp }
    dsimp only at e
    split at e
    · exact fd_call h' e
    · exact fd_deref h' hr e
  · exact fd_deref h hr e

theorem fd_goWrite {s s' : F} (h : Fd s) (hr : s.freed = false → 2 ≤ s.ref) (e : goWrite s = some s') : Fd s' := by
  unfold goWrite at e
  split at e
  · exact fd_call h e
  · exact fd_goTail h hr e

theorem fd_goRead {s s' : F} (h : Fd s) (hr : s.freed = false → 2 ≤ s.ref) (r : Rd) (e : goRead s r = some s') : Fd s' := by
  unfold goRead at e
  split at e
  · rename_i hc
    have hf : Fd (fillBuf s r) ∧ ((fillBuf s r).freed = false → 2 ≤ (fillBuf s r).ref) := by
      unfold fillBuf
      split
      · split
        · exact ⟨{ lost := h.lost, shut := h.shut, freed := h.freed }, hr⟩
        · dsimp only
          split
          · exact ⟨{ lost := h.lost, shut := h.shut, freed := h.freed }, hr⟩
          · exact ⟨{ lost := h.lost, shut := fun a => absurd hc.1 a, freed := h.freed }, hr⟩
      · exact ⟨h, hr⟩
    dsimp only at e
    split at e
    · exact fd_goWrite (s := { fillBuf s r with rd := false, buf := [] }) { lost := hf.1.lost, shut := hf.1.shut, freed := hf.1.freed } hf.2 e
    · exact fd_call hf.1 e
  · exact fd_goWrite h hr e

theorem fd_startRun {s s' : F} (h : Fd s) (hr : s.freed = false → 2 ≤ s.ref) (r : Rd) (e : startRun s r = some s') : Fd s' := by
  unfold startRun at e
  split at e
  · rename_i hst
    have h' : Fd { s with st := if s.st = St.inOpenClose then St.inClose else St.open } := by
      by_cases h2 : s.st = .inOpenClose
      · simp only [h2, if_true]
        have hs := h.shut (by rw [h2]; simp) (by rw [h2]; simp)
        exact { lost := h.lost, shut := fun _ _ => hs, freed := by simp }
      · simp only [h2, if_false]
        refine { lost := h.lost, shut := by simp, freed := ?_ }
        intro hf
        have h1 : s.st = .inOpen := by
          rcases hst with hst | hst
          · exact hst
          · exact absurd hst h2
        exact absurd h1 (h.freed hf).2
    dsimp only at e
    split at e
    · exact fd_call h' e
    · exact fd_goRead h' hr r e
  · exact fd_goRead h hr r e

theorem fd_resume {s s' : F} (h : Fd s) (hr : s.freed = false → 2 ≤ s.ref) {p : Pc} {err : Bool} {count : Nat} {r : Rd}
    (e : resume s p err count r = some s') : Fd s' := by
  unfold resume at e
  cases p with
  | openCb => exact fd_goRead h hr r e
  | closeCb => exact fd_deref h hr e
  | writeCb =>
    dsimp only at e
    split at e
    · exact fd_goTail (by exact { lost := h.lost, shut := h.shut, freed := h.freed }) (by exact hr) e
    · exact fd_goWrite h hr e
  | readCb d =>
    dsimp only at e
    split at e
    · exact fd_goWrite (by exact { lost := h.lost, shut := h.shut, freed := h.freed }) (by exact hr) e
    · refine fd_goRead ?_ ?_ r e
      · unfold consume
        split
        · split <;> exact { lost := h.lost, shut := h.shut, freed := h.freed }
        · exact { lost := h.lost, shut := h.shut, freed := h.freed }
      · unfold consume
        split
        · split <;> exact hr
        · exact hr

theorem fd_startOp {s s' : F} (h : Fd s) (e : startOp s = some s') : Fd s' := by
  unfold startOp at e
  split at e
  · cases e; exact h
  · split at e
    · cases e
    · cases e; exact { lost := h.lost, shut := h.shut, freed := h.freed }

/-- Output files can be opened, and the gensio is not freed while it is open or being opened. -/
def tidyOp (s : F) : Op → Prop
  | .open _ _ ok => ok = true
  | .free => s.st ≠ .open ∧ s.st ≠ .inOpen
  | _ => True

theorem fd_user {s s' : F} (h : Fd s) (o : Op) (ht : tidyOp s o) (hnf : s.freed = false) (e : user s o = some s') : Fd s' := by
  cases o with
  | run r => cases e; exact h
  | ret a b c d => cases e; exact h
  | write sg k =>
    have e : some (write s sg k).2 = some s' := e
    simp only [Option.some.injEq] at e
    rw [← e]
    unfold write
    split
    · exact h
    · split
      · exact h
      · split
        · exact h
        · dsimp only
          split
          · exact h
          · exact { lost := h.lost, shut := h.shut, freed := h.freed }
  | setRead b =>
    have e : setRead s b = some s' := e
    unfold setRead at e
    split at e
    · cases e; exact h
    · split at e
      · exact fd_startOp (s := { s with rd := b }) { lost := h.lost, shut := h.shut, freed := h.freed } e
      · cases e; exact { lost := h.lost, shut := h.shut, freed := h.freed }
  | setWrite b =>
    have e : setWrite s b = some s' := e
    unfold setWrite at e
    split at e
    · cases e; exact h
    · split at e
      · exact fd_startOp (s := { s with wr := b }) { lost := h.lost, shut := h.shut, freed := h.freed } e
      · cases e; exact { lost := h.lost, shut := h.shut, freed := h.freed }
  | «open» id d ok =>
    have ht : ok = true := ht
    subst ht
    have e : fopen s id d true = some s' := e
    unfold fopen at e
    split at e
    · cases e; exact h
    · rename_i hst
      have hst : s.st = .closed := by simpa using hst
      obtain ⟨hi, ho⟩ := h.shut (by rw [hst]; simp) (by rw [hst]; simp)
      split at e
      · cases e; exact h
      · have key : ∀ t : F, t = (if s.infile then { s with inf := d, cur := d.getD [], curRead := [], infOpens := s.infOpens + 1, lost := s.lost + if s.inf.isSome then 1 else 0 } else s) → t.lost = 0 ∧ t.outf = false ∧ t.freed = false := by
          intro t ht
          subst ht
          split
          · exact ⟨by simp [hi, h.lost], ho, hnf⟩
          · exact ⟨h.lost, ho, hnf⟩
        obtain ⟨k1, k2, k3⟩ := key _ rfl
        generalize (if s.infile then { s with inf := d, cur := d.getD [], curRead := [], infOpens := s.infOpens + 1, lost := s.lost + if s.inf.isSome then 1 else 0 } else s) = t at k1 k2 k3 e
        dsimp only at e
        rw [if_neg (by simp)] at e
        refine fd_startOp (s := _) ?_ e
        split
        · exact { lost := by simp [k1, k2], shut := by simp, freed := by simp [k3] }
        · exact { lost := k1, shut := by simp, freed := by simp [k3] }
  | close id =>
    have e : fclose s id = some s' := e
    unfold fclose at e
    split at e
    · cases e; exact h
    · refine fd_startOp ?_ e
      refine { lost := h.lost, shut := fun _ _ => ⟨rfl, rfl⟩, freed := ?_ }
      intro hf
      have hf : s.freed = true := hf
      rw [hnf] at hf; cases hf
  | free =>
    have ht : s.st ≠ .open ∧ s.st ≠ .inOpen := ht
    have e : ffree s = some s' := e
    unfold ffree at e
    obtain ⟨hi, ho⟩ := h.shut ht.1 ht.2
    split at e
    · cases e
    · refine fd_deref ?_ ?_ e
      rotate_left
      · simp
      refine { lost := h.lost, shut := fun _ _ => ⟨hi, ho⟩, freed := fun _ => ?_ }
      dsimp only
      split
      · simp
      · exact ht

/-- Every call is as `tidyOp` says. -/
def tidy (s : F) : List Op → Prop
  | [] => True
  | o :: os => tidyOp s o ∧ ∀ s', step s o = some s' → tidy s' os

theorem fd_step {s s' : F} (hinv : Inv none s) (h : Fd s) (o : Op) (ht : tidyOp s o) (e : step s o = some s') : Fd s' := by
  have hrf := hinv.refs
  simp only [Option.isSome_none, Bool.false_eq_true, if_false] at hrf
  have huser : ∀ o, tidyOp s o → step s o = (if s.freed then some s else if s.gone then none else user s o) → step s o = some s' → Fd s' := by
    intro o ht he e
    rw [he] at e
    split at e
    · cases e; exact h
    · rename_i hf
      split at e
      · cases e
      · exact fd_user h o ht (by simpa using hf) e
  cases o with
  | run r =>
    rw [step] at e
    split at e
    · rename_i hq
      split at e
      · cases e
      · refine fd_startRun (s := { s with queued := false }) { lost := h.lost, shut := h.shut, freed := h.freed } ?_ r e
        intro hf
        have hf : s.freed = false := hf
        rw [hf, hq] at hrf
        simp only [Bool.false_eq_true, if_true, if_false] at hrf
        dsimp only
        omega
    · cases e; exact h
  | ret i er c r =>
    rw [step] at e
    split at e
    · rename_i hp
      split at e
      · cases e
      · refine fd_resume (s := { s with ths := s.ths.eraseIdx i }) { lost := h.lost, shut := h.shut, freed := h.freed } ?_ e
        intro hf
        have hf : s.freed = false := hf
        rw [hf] at hrf
        have := List.length_pos_of_mem (List.mem_of_getElem? hp)
        simp only [Bool.false_eq_true, if_false] at hrf
        dsimp only
        omega
    · cases e; exact h
  | _ => exact huser _ ht rfl e

theorem fd_run {s s' : F} (ops : List Op) (hinv : Inv none s) (h : Fd s) (ht : tidy s ops) (e : run s ops = some s') : Fd s' := by
  induction ops generalizing s with
  | nil => cases e; exact h
  | cons o os ih =>
    rw [run] at e
    obtain ⟨s1, e1, i1⟩ := inv_step hinv o
    rw [e1] at e
    exact ih i1 (fd_step hinv h o ht.1 e1) (ht.2 s1 e1) e

end Gensio.FileIo
