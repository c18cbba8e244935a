import Verif.Lemmas.Echo
/-!
# The echo gensio: C149–C152
-/
namespace Gensio.Echo

/-- What the operation does after a callback, case by case. -/
theorem resume_cases {s s' : E} {er : Bool} {count k : Nat} (e : resume s (if er then some .user else none) count k = some s') :
    (goRead s k = some s') ∨ (er = true ∧ goWrite { s with err := some .user } k = some s') ∨
    (∃ g b, er = false ∧ goRead { s with err := none, got := g, buf := b } k = some s') ∨
    (er = true ∧ goTail { s with err := some .user } k = some s') ∨ (er = false ∧ goWrite { s with err := none } k = some s') ∨
    (s.st ≠ .closed ∧ restart s k = some s') ∨ (s.st = .closed ∧ finish s = some s') := by
  unfold resume at e
  cases hpc : s.pc with
  | none => rw [hpc] at e; cases e
  | some p =>
    rw [hpc] at e
    cases p with
    | openCb => exact Or.inl e
    | remCb => exact Or.inl e
    | readCb n =>
      cases er with
      | true => exact Or.inr (Or.inl ⟨rfl, by simpa [hpc] using e⟩)
      | false =>
        refine Or.inr (Or.inr (Or.inl ?_))
        simp only [Bool.false_eq_true, if_false, ne_eq, not_true] at e
        by_cases hl : min count n > s.buf.length
        · rw [if_pos hl] at e; cases e
        · rw [if_neg hl] at e; exact ⟨_, _, rfl, by simpa only [hpc] using e⟩
    | writeCb =>
      cases er with
      | true => exact Or.inr (Or.inr (Or.inr (Or.inl ⟨rfl, by simpa [hpc] using e⟩)))
      | false => exact Or.inr (Or.inr (Or.inr (Or.inr (Or.inl ⟨rfl, by simpa [hpc] using e⟩))))
    | closeCb =>
      refine Or.inr (Or.inr (Or.inr (Or.inr (Or.inr ?_))))
      by_cases hc : s.st = .closed
      · exact Or.inr ⟨hc, by simpa [hc] using e⟩
      · exact Or.inl ⟨hc, by simpa [hc] using e⟩

/-- What a restart does, case by case. -/
theorem restart_cases {s s' : E} {k : Nat} (e : restart s k = some s') :
    ((s.st ≠ .inOpen ∧ s.st ≠ .inOpenClose) ∧ goRead s k = some s') ∨
    (∃ st er, (st = .open ∧ er = s.err ∨ s.st = .inOpenClose ∧ st = .inClose ∧ er = some .localclosed) ∧
      ((∃ id, s' = { s with st := st, err := er, pc := some .openCb, evs := s.evs ++ [.opened id er] }) ∨ goRead { s with st := st, err := er } k = some s')) := by
  unfold restart at e
  by_cases h2 : s.st = .inOpenClose
  · right
    refine ⟨.inClose, some .localclosed, Or.inr ⟨h2, rfl, rfl⟩, ?_⟩
    rw [if_pos (Or.inr h2)] at e
    simp only [h2, if_true] at e
    cases ho : s.openId with
    | none => rw [ho] at e; right; simpa only [ho] using e
    | some id => rw [ho] at e; left; refine ⟨id, ?_⟩; simp only [Option.some.injEq] at e; rw [← e]
  · by_cases h1 : s.st = .inOpen
    · right
      refine ⟨.open, s.err, Or.inl ⟨rfl, rfl⟩, ?_⟩
      rw [if_pos (Or.inl h1)] at e
      simp only [h2, if_false] at e
      cases ho : s.openId with
      | none => rw [ho] at e; right; simpa only [ho] using e
      | some id => rw [ho] at e; left; refine ⟨id, ?_⟩; simp only [Option.some.injEq] at e; rw [← e]
    · left
      rw [if_neg (by simp [h1, h2])] at e
      exact ⟨⟨h1, h2⟩, e⟩

/-- What a call by the user does, case by case. -/
theorem user_cases {s s' : E} {o : Op} (ho : o.user = true) (e : step s o = some s') :
    (s' = s) ∨ (s.freed = false ∧ ∃ st b p rd wr oi ci os cs, (startOp { s with st := st, buf := b, put := p, rd := rd, wr := wr, openId := oi, closeId := ci, opens := os, closes := cs } = some s' ∨
      s' = { s with st := st, buf := b, put := p, rd := rd, wr := wr, openId := oi, closeId := ci, opens := os, closes := cs }) ∧
      (st = .inOpenClose → s.st = .inOpenClose ∨ s.st = .inOpen ∧ ∃ id, o = .close id)) ∨
    (s.freed = false ∧ deref { s with st := .closed, freed := true } = some s') := by
  by_cases hf : s.freed = true
  · have : step s o = some s := by
      cases o <;> first | (cases ho; done) | (show (if s.freed then some s else _) = _; rw [if_pos hf])
    rw [this] at e
    cases e
    exact Or.inl rfl
  by_cases hg : s.gone = true
  · have : step s o = none := by
      cases o <;> first | (cases ho; done) | (show (if s.freed then some s else if s.gone then none else _) = _; rw [if_neg hf, if_pos hg])
    rw [this] at e
    cases e
  have hf : s.freed = false := by simpa using hf
  have hg : s.gone = false := by simpa using hg
  cases o with
  | run k => cases ho
  | ret a b c => cases ho
  | free => simp only [step, hf, hg, Bool.false_eq_true, if_false] at e; exact Or.inr (Or.inr ⟨hf, by simpa only [hf, hg] using e⟩)
  | write d =>
    simp only [step, hf, hg, Bool.false_eq_true, if_false] at e
    by_cases h1 : s.st ≠ .open
    · rw [if_pos h1] at e; cases e; exact Or.inl rfl
    rw [if_neg h1] at e
    by_cases h2 : s.noecho = true
    · rw [if_pos h2] at e; cases e; exact Or.inl rfl
    rw [if_neg h2] at e
    refine Or.inr (Or.inl ⟨hf, s.st, s.buf ++ d.take (min d.length (s.cap - s.buf.length)), s.put ++ d.take (min d.length (s.cap - s.buf.length)), s.rd, s.wr, s.openId, s.closeId, s.opens, s.closes, ?_, fun h => Or.inl h⟩)
    split at e
    · left; simpa only [hf, hg] using e
    · right; cases e; simp only [hf, hg]
  | setRead b =>
    simp only [step, hf, hg, Bool.false_eq_true, if_false] at e
    refine Or.inr (Or.inl ⟨hf, s.st, s.buf, s.put, b, s.wr, s.openId, s.closeId, s.opens, s.closes, ?_, fun h => Or.inl h⟩)
    split at e
    · left; simpa only [hf, hg] using e
    · right; cases e; simp only [hf, hg]
  | setWrite b =>
    simp only [step, hf, hg, Bool.false_eq_true, if_false] at e
    refine Or.inr (Or.inl ⟨hf, s.st, s.buf, s.put, s.rd, b, s.openId, s.closeId, s.opens, s.closes, ?_, fun h => Or.inl h⟩)
    split at e
    · left; simpa only [hf, hg] using e
    · right; cases e; simp only [hf, hg]
  | «open» id =>
    simp only [step, hf, hg, Bool.false_eq_true, if_false] at e
    by_cases h1 : s.st ≠ .closed
    · rw [if_pos h1] at e; cases e; exact Or.inl rfl
    rw [if_neg h1] at e
    exact Or.inr (Or.inl ⟨hf, .inOpen, s.buf, s.put, s.rd, s.wr, id, s.closeId, s.opens ++ id.toList, s.closes, Or.inl (by simpa only [hf, hg] using e), by simp⟩)
  | close id =>
    simp only [step, hf, hg, Bool.false_eq_true, if_false] at e
    by_cases h1 : s.st = .open
    · rw [if_pos h1] at e
      exact Or.inr (Or.inl ⟨hf, .inClose, s.buf, s.put, s.rd, s.wr, s.openId, id, s.opens, s.closes ++ id.toList, Or.inl (by simpa only [hf, hg] using e), by simp⟩)
    rw [if_neg h1] at e
    by_cases h2 : s.st = .inOpen
    · rw [if_pos h2] at e
      exact Or.inr (Or.inl ⟨hf, .inOpenClose, s.buf, s.put, s.rd, s.wr, s.openId, id, s.opens, s.closes ++ id.toList, Or.inl (by simpa only [hf, hg] using e), fun _ => Or.inr ⟨h2, _, rfl⟩⟩)
    rw [if_neg h2] at e
    cases e; exact Or.inl rfl

/-! ### C149: what is written is read, in order -/

/-- In every run, whatever threads do: what the user has taken and what is still in the buffer are the
data configured followed by the data accepted from him, in order, and the buffer never holds more than
its size. -/
theorem C149_echo (readbuf : Nat) (noecho : Bool) (data : Option (List UInt8)) (ops : List Op) :
    ∃ s, run (E.new readbuf noecho data) ops = some s ∧ data.getD [] ++ s.put = s.got ++ s.buf ∧ s.buf.length ≤ s.cap := by
  obtain ⟨s, e, h⟩ := inv_run ops (inv_new readbuf noecho data)
  exact ⟨s, e, h.data, h.cap⟩

/-- Each read callback is offered bytes that are next in that order. -/
theorem C149_offered (readbuf : Nat) (noecho : Bool) (data : Option (List UInt8)) (ops : List Op) (o : Op) {s s' : E}
    (e : run (E.new readbuf noecho data) ops = some s) (e' : step s o = some s') {n : Nat} (hn : s'.pc = some (.readCb n)) (hold : s.pc ≠ s'.pc) :
    n ≤ s'.buf.length ∧ (s'.buf ≠ [] → 0 < n) ∧ s'.evs.getLast? = some (.read (s'.buf.take n)) := by
  have key : ∀ (t : E) (k : Nat), t.pc = none ∨ True → ∀ t', (callRead t k = some t' → t'.pc = some (.readCb n) →
      n ≤ t'.buf.length ∧ (t'.buf ≠ [] → 0 < n) ∧ t'.evs.getLast? = some (.read (t'.buf.take n))) := by
    intro t k _ t' et hp
    simp only [callRead, Option.some.injEq] at et
    subst et
    simp only [Option.some.injEq, Pc.readCb.injEq] at hp
    subst hp
    refine ⟨Nat.min_le_right _ _, fun hne => ?_, by simp⟩
    have : 0 < t.buf.length := List.length_pos_iff.2 hne
    have : 0 < min (max k 1) t.buf.length := by omega
    exact this
  have hder : ∀ (t t' : E), finish t = some t' → t'.pc ≠ some (.readCb n) := by
    intro t t' et
    unfold finish deref at et
    split at et
    · cases et
    · split at et <;> (simp only [Option.some.injEq] at et; subst et; simp)
  have htail : ∀ (t : E) (k : Nat) t', goTail t k = some t' → t'.pc = some (.readCb n) →
      n ≤ t'.buf.length ∧ (t'.buf ≠ [] → 0 < n) ∧ t'.evs.getLast? = some (.read (t'.buf.take n)) := by
    intro t k t' et hp
    unfold goTail at et
    split at et
    · exact key t k (Or.inr trivial) t' et hp
    · split at et
      · dsimp only at et
        split at et
        · simp only [Option.some.injEq] at et; subst et; simp at hp
        · exact absurd hp (hder _ _ et)
      · exact absurd hp (hder _ _ et)
  have hwrite : ∀ (t : E) (k : Nat) t', goWrite t k = some t' → t'.pc = some (.readCb n) →
      n ≤ t'.buf.length ∧ (t'.buf ≠ [] → 0 < n) ∧ t'.evs.getLast? = some (.read (t'.buf.take n)) := by
    intro t k t' et hp
    unfold goWrite at et
    split at et
    · simp only [Option.some.injEq] at et; subst et; simp at hp
    · exact htail t k t' et hp
  have hread : ∀ (t : E) (k : Nat) t', goRead t k = some t' → t'.pc = some (.readCb n) →
      n ≤ t'.buf.length ∧ (t'.buf ≠ [] → 0 < n) ∧ t'.evs.getLast? = some (.read (t'.buf.take n)) := by
    intro t k t' et hp
    unfold goRead at et
    split at et
    · split at et
      · simp only [Option.some.injEq] at et; subst et; simp at hp
      · exact key t k (Or.inr trivial) t' et hp
    · exact hwrite t k t' et hp
  have hrestart : ∀ (t : E) (k : Nat) t', restart t k = some t' → t'.pc = some (.readCb n) →
      n ≤ t'.buf.length ∧ (t'.buf ≠ [] → 0 < n) ∧ t'.evs.getLast? = some (.read (t'.buf.take n)) := by
    intro t k t' et hp
    rcases restart_cases et with ⟨_, h⟩ | ⟨st, er, _, ⟨id, h⟩ | h⟩
    · exact hread t k t' h hp
    · rw [h] at hp; simp at hp
    · exact hread _ k t' h hp
  have hstart : ∀ (t t' : E), startOp t = some t' → t'.pc = t.pc := by
    intro t t' et
    unfold startOp at et
    split at et
    · simp only [Option.some.injEq] at et; rw [et]
    · split at et
      · cases et
      · simp only [Option.some.injEq] at et; rw [← et]
  have hder2 : ∀ (t t' : E), deref t = some t' → t'.pc = t.pc := by
    intro t t' et
    unfold deref at et
    split at et
    · cases et
    · split at et <;> (simp only [Option.some.injEq] at et; rw [← et])
  cases o with
  | run k =>
    rw [step] at e'
    split at e'
    · split at e'
      · cases e'
      · exact hrestart _ k s' e' hn
    · simp only [Option.some.injEq] at e'; rw [e'] at hold; exact absurd rfl hold
  | ret er count k =>
    rw [step] at e'
    split at e'
    · split at e'
      · cases e'
      · rcases resume_cases e' with h | ⟨_, h⟩ | ⟨_, _, _, h⟩ | ⟨_, h⟩ | ⟨_, h⟩ | ⟨_, h⟩ | ⟨_, h⟩
        · exact hread _ k s' h hn
        · exact hwrite _ k s' h hn
        · exact hread _ k s' h hn
        · exact htail _ k s' h hn
        · exact hwrite _ k s' h hn
        · exact hrestart _ k s' h hn
        · exact absurd hn (hder _ _ h)
    · simp only [Option.some.injEq] at e'; rw [e'] at hold; exact absurd rfl hold
  | _ =>
    exfalso
    apply hold
    rcases user_cases rfl e' with h | ⟨_, _, _, _, _, _, _, _, _, _, h | h, _⟩ | ⟨_, h⟩
    · rw [h]
    · exact (hstart _ _ h).symm
    · rw [h]
    · exact (hder2 _ _ h).symm

/-- "hello" is written, a part is taken, then the rest. -/
example : (match run (E.new 100 false none) [.open (some 1), .setRead true, .run 0, .ret false 0 0, .write [104, 101, 108, 108, 111], .run 9, .ret false 2 9] with
    | some s => s.evs = [.opened 1 none, .read [104, 101, 108, 108, 111], .read [108, 108, 111]] ∧ s.got = [104, 101] | none => false) = true := by decide +kernel

/-- What was not read before a close is read after the next open: a gensio that is reopened does not
start empty. -/
theorem C149_reopen_violated :
    (match run (E.new 100 false none) [.open (some 1), .run 0, .ret false 0 0, .write [1, 2, 3], .run 0, .close (some 2), .run 0, .ret false 0 0,
      .setRead true, .open (some 3), .run 0, .ret false 0 5] with
    | some s => s.evs = [.opened 1 none, .closed 2, .opened 3 none, .read [1, 2, 3]] | none => false) = true := by decide +kernel

/-! ### C150: no use after free, no callback inside another, none after free -/

/-- In every run: no assertion fails and no freed memory is used; the memory is freed exactly when the
user has freed the gensio and the operation has ended; the operation runs at most once at a time; after
the free no callback is called. -/
theorem C150_memory (readbuf : Nat) (noecho : Bool) (data : Option (List UInt8)) (ops : List Op) :
    ∃ s, run (E.new readbuf noecho data) ops = some s ∧
      (s.gone = true ↔ s.freed = true ∧ s.queued = false ∧ s.pc = none) ∧
      ¬(s.queued = true ∧ s.pc.isSome = true) ∧
      (s.freed = true → ∀ os, ∃ s', run s os = some s' ∧ s'.evs = s.evs) := by
  obtain ⟨s, e, h⟩ := inv_run ops (inv_new readbuf noecho data)
  refine ⟨s, e, ?_, h.excl, ?_⟩
  · rw [h.gone, h.refs]
    have hp := h.pend
    cases hf : s.freed <;> cases hq : s.queued <;> cases hpc : s.pc <;> rw [hq, hpc] at hp <;> simp [hp]
  · have hfin : ∀ t t', finish t = some t' → t'.evs = t.evs ∧ t'.freed = t.freed := by
      intro t t' et
      unfold finish deref at et
      split at et
      · cases et
      · split at et <;> (simp only [Option.some.injEq] at et; subst et; exact ⟨rfl, rfl⟩)
    have htail : ∀ t k t', t.st = .closed → goTail t k = some t' → t'.evs = t.evs ∧ t'.freed = t.freed := by
      intro t k t' hs et
      unfold goTail at et
      rw [if_neg (by simp [hs]), if_neg (by simp [hs])] at et
      exact hfin t t' et
    have hwrite : ∀ t k t', t.st = .closed → goWrite t k = some t' → t'.evs = t.evs ∧ t'.freed = t.freed := by
      intro t k t' hs et
      unfold goWrite at et
      rw [if_neg (by simp [hs])] at et
      exact htail t k t' hs et
    have hread : ∀ t k t', t.st = .closed → goRead t k = some t' → t'.evs = t.evs ∧ t'.freed = t.freed := by
      intro t k t' hs et
      unfold goRead at et
      rw [if_neg (by simp [hs])] at et
      exact hwrite t k t' hs et
    have hstep : ∀ (d : List UInt8) (t t' : E) (o : Op), Inv d t → t.freed = true → step t o = some t' → t'.evs = t.evs ∧ t'.freed = true := by
      intro d t t' o hi hf et
      have hs := hi.freed hf
      have huser : ∀ o, o.user = true → step t o = some t := by
        intro o ho
        cases o <;> first | (cases ho; done) | (show (if t.freed then some t else _) = _; rw [if_pos hf])
      cases o with
      | run k =>
        rw [step] at et
        split at et
        · split at et
          · cases et
          · unfold restart at et
            rw [if_neg (by simp [hs])] at et
            have := hread _ k t' (by exact hs) et
            exact ⟨this.1, by rw [this.2]; exact hf⟩
        · simp only [Option.some.injEq] at et; subst et; exact ⟨rfl, hf⟩
      | ret er count k =>
        rw [step] at et
        have done : ∀ x : E, x.evs = t.evs → x.freed = t.freed → t'.evs = x.evs ∧ t'.freed = x.freed → t'.evs = t.evs ∧ t'.freed = true := by
          intro x a b c; exact ⟨by rw [c.1, a], by rw [c.2, b, hf]⟩
        split at et
        · split at et
          · cases et
          · rcases resume_cases et with h | ⟨_, h⟩ | ⟨_, _, _, h⟩ | ⟨_, h⟩ | ⟨_, h⟩ | ⟨h, _⟩ | ⟨_, h⟩
            · exact done t rfl rfl (hread _ k t' hs h)
            · have hh := hwrite _ k t' (by exact hs) h; exact ⟨hh.1, hh.2.trans hf⟩
            · have hh := hread _ k t' (by exact hs) h; exact ⟨hh.1, hh.2.trans hf⟩
            · have hh := htail _ k t' (by exact hs) h; exact ⟨hh.1, hh.2.trans hf⟩
            · have hh := hwrite _ k t' (by exact hs) h; exact ⟨hh.1, hh.2.trans hf⟩
            · exact absurd hs h
            · exact done t rfl rfl (hfin t t' h)
        · simp only [Option.some.injEq] at et; subst et; exact ⟨rfl, hf⟩
      | _ =>
        rw [huser _ rfl] at et
        simp only [Option.some.injEq] at et; subst et; exact ⟨rfl, hf⟩
    intro hf os
    have : ∀ (os : List Op) (t : E), Inv (data.getD []) t → t.freed = true → ∃ t', run t os = some t' ∧ t'.evs = t.evs := by
      intro os
      induction os with
      | nil => intro t _ _; exact ⟨t, rfl, rfl⟩
      | cons o os ih =>
        intro t hi hf
        obtain ⟨t1, e1, i1⟩ := inv_step hi o
        obtain ⟨a, b⟩ := hstep _ t t1 o hi hf e1
        obtain ⟨t2, e2, c⟩ := ih t1 i1 b
        exact ⟨t2, by rw [run, e1]; exact e2, by rw [c, a]⟩
    exact this os s h hf

/-- Free in a read callback: the operation ends without another callback and then the memory is freed. -/
example : (match run (E.new 100 false (some [1, 2, 3])) [.open (some 1), .setRead true, .run 0, .ret false 0 1, .free, .ret false 1 1] with
    | some s => s.evs = [.opened 1 none, .read [1]] ∧ s.gone = true | none => false) = true := by decide +kernel

/-! ### C151: opens and closes are reported once -/

/-- In every run without a free: the opens reported are the opens accepted, in order, but for one that is
not yet reported, and the same for the closes; when the operation is not pending all are reported. -/
theorem C151_reported_partial (readbuf : Nat) (noecho : Bool) (data : Option (List UInt8)) (ops : List Op) {s : E}
    (e : run (E.new readbuf noecho data) ops = some s) (hf : s.freed = false) :
    (∃ o, s.opens = (s.evs.flatMap fun e => match e with | .opened i _ => [i] | _ => []) ++ o ∧ o.length ≤ 1 ∧ (s.pend = false → o = [])) ∧
    (∃ c, s.closes = (s.evs.flatMap fun e => match e with | .closed i => [i] | _ => []) ++ c ∧ c.length ≤ 1 ∧ (s.pend = false → c = [])) := by
  obtain ⟨s', e', h⟩ := inv_run ops (inv_new readbuf noecho data)
  rw [e] at e'
  cases e'
  have hl : ∀ o : Option Nat, o.toList.length ≤ 1 := by intro o; cases o <;> simp
  have hidle : s.pend = false → s.st ≠ .inOpen ∧ s.st ≠ .inOpenClose ∧ s.st ≠ .inClose := by
    intro hp
    have hpe := h.pend
    rw [hp] at hpe
    have hop : ¬(s.st = .inOpen ∨ s.st = .inOpenClose) := by
      intro ho
      rcases h.opening ho with h1 | h1
      · rw [h1] at hpe; simp at hpe
      · rw [h1] at hpe; simp at hpe
    exact ⟨fun h => hop (Or.inl h), fun h => hop (Or.inr h), fun hc => by have := h.closing hc; rw [hp] at this; cases this⟩
  refine ⟨⟨_, h.opens hf, ?_, ?_⟩, ⟨_, h.closes hf, ?_, ?_⟩⟩
  · split
    · exact hl _
    · simp
  · intro hp
    obtain ⟨a, b, c⟩ := hidle hp
    rw [if_neg (by simp [a, b])]
  · split
    · exact hl _
    · simp
  · intro hp
    obtain ⟨a, b, c⟩ := hidle hp
    rw [if_neg (by simp [b, c])]

/-- Opened, closed in the open callback, opened again in the close callback. -/
example : (match run (E.new 100 false none) [.open (some 1), .run 0, .close (some 2), .ret false 0 0, .open (some 3), .ret false 0 0, .ret false 0 0] with
    | some s => s.evs = [.opened 1 none, .closed 2, .opened 3 none] ∧ s.pend = false ∧ s.st = .open | none => false) = true := by decide +kernel

/-- The result reported for an open can be that of the one before: a gensio closed while it was opened,
and opened again in the close callback, is open but its open is reported as closed locally. -/
theorem C151_result_violated :
    (match run (E.new 100 false none) [.open (some 1), .close (some 2), .run 0, .ret false 0 0, .open (some 3), .ret false 0 0] with
    | some s => s.evs = [.opened 1 (some .localclosed), .closed 2, .opened 3 (some .localclosed)] ∧ s.st = .open | none => false) = true := by decide +kernel

/-- The same with an error the user's own read callback gave. -/
theorem C151_result_read_violated :
    (match run (E.new 100 false (some [1])) [.open (some 1), .setRead true, .run 0, .ret false 0 0, .close (some 2), .ret true 0 0, .open (some 3), .ret false 0 0] with
    | some s => s.evs = [.opened 1 none, .read [1], .closed 2, .opened 3 (some .user)] ∧ s.st = .open | none => false) = true := by decide +kernel

/-! ### C152: enabled callbacks are called -/

/-- A run in which no callback gives an error and no close comes while an open is not done. -/
def calm (s : E) : List Op → Prop
  | [] => True
  | o :: os => (match o with | .ret e _ _ => e = false | .close _ => s.st ≠ .inOpen | _ => True) ∧
      ∀ s', step s o = some s' → calm s' os

theorem noerr_step {s s' : E} {o : Op} (h : s.err = none ∧ s.st ≠ .inOpenClose)
    (hc : match o with | .ret e _ _ => e = false | .close _ => s.st ≠ .inOpen | _ => True) (e : step s o = some s') :
    s'.err = none ∧ s'.st ≠ .inOpenClose := by
  have hfin : ∀ t t' : E, t.err = none → t.st ≠ .inOpenClose → finish t = some t' → t'.err = none ∧ t'.st ≠ .inOpenClose := by
    intro t t' a b et
    unfold finish deref at et
    split at et
    · cases et
    · split at et <;> (simp only [Option.some.injEq] at et; subst et; exact ⟨a, b⟩)
  have hcr : ∀ (t : E) k t', t.err = none → t.st ≠ .inOpenClose → callRead t k = some t' → t'.err = none ∧ t'.st ≠ .inOpenClose := by
    intro t k t' a b et
    simp only [callRead, Option.some.injEq] at et; subst et; exact ⟨a, b⟩
  have htail : ∀ (t : E) k t', t.err = none → t.st ≠ .inOpenClose → goTail t k = some t' → t'.err = none ∧ t'.st ≠ .inOpenClose := by
    intro t k t' a b et
    unfold goTail at et
    split at et
    · exact hcr t k t' a b et
    · split at et
      · dsimp only at et
        split at et
        · simp only [Option.some.injEq] at et; subst et; exact ⟨a, by simp⟩
        · exact hfin { t with st := .closed } t' a (by simp) et
      · exact hfin t t' a b et
  have hwrite : ∀ (t : E) k t', t.err = none → t.st ≠ .inOpenClose → goWrite t k = some t' → t'.err = none ∧ t'.st ≠ .inOpenClose := by
    intro t k t' a b et
    unfold goWrite at et
    split at et
    · simp only [Option.some.injEq] at et; subst et; exact ⟨a, b⟩
    · exact htail t k t' a b et
  have hread : ∀ (t : E) k t', t.err = none → t.st ≠ .inOpenClose → goRead t k = some t' → t'.err = none ∧ t'.st ≠ .inOpenClose := by
    intro t k t' a b et
    unfold goRead at et
    split at et
    · split at et
      · simp only [Option.some.injEq] at et; subst et; exact ⟨a, b⟩
      · exact hcr t k t' a b et
    · exact hwrite t k t' a b et
  have hrestart : ∀ (t : E) k t', t.err = none → t.st ≠ .inOpenClose → restart t k = some t' → t'.err = none ∧ t'.st ≠ .inOpenClose := by
    intro t k t' a b et
    rcases restart_cases et with ⟨_, h⟩ | ⟨st, er, h0, h⟩
    · exact hread t k t' a b h
    · rcases h0 with ⟨h1, h2⟩ | ⟨h1, _⟩
      · subst h1
        rw [a] at h2
        subst h2
        rcases h with ⟨id, h⟩ | h
        · rw [h]; exact ⟨rfl, by simp⟩
        · exact hread { t with st := .open, err := none } k t' rfl (by simp) h
      · exact absurd h1 b
  have hstart : ∀ (t t' : E), t.err = none → t.st ≠ .inOpenClose → startOp t = some t' → t'.err = none ∧ t'.st ≠ .inOpenClose := by
    intro t t' a b et
    unfold startOp at et
    split at et
    · simp only [Option.some.injEq] at et; subst et; exact ⟨a, b⟩
    · split at et
      · cases et
      · simp only [Option.some.injEq] at et; subst et; exact ⟨a, b⟩
  obtain ⟨a, b⟩ := h
  cases o with
  | run k =>
    rw [step] at e
    split at e
    · split at e
      · cases e
      · exact hrestart { s with queued := false, err := none } k s' rfl b e
    · simp only [Option.some.injEq] at e; subst e; exact ⟨a, b⟩
  | ret er count k =>
    have hc : er = false := hc
    subst hc
    rw [step] at e
    split at e
    · split at e
      · cases e
      · rcases resume_cases e with h | ⟨h, _⟩ | ⟨_, _, _, h⟩ | ⟨h, _⟩ | ⟨_, h⟩ | ⟨_, h⟩ | ⟨_, h⟩
        · exact hread s k s' a b h
        · cases h
        · exact hread { s with err := _, got := _, buf := _ } k s' rfl b h
        · cases h
        · exact hwrite { s with err := _ } k s' rfl b h
        · exact hrestart s k s' a b h
        · exact hfin s s' a b h
    · simp only [Option.some.injEq] at e; subst e; exact ⟨a, b⟩
  | _ =>
    rcases user_cases rfl e with h | ⟨_, st, bf, _, _, _, _, _, _, _, h, hs⟩ | ⟨_, h⟩
    · rw [h]; exact ⟨a, b⟩
    · have hst : st ≠ .inOpenClose := by
        intro he
        rcases hs he with h | ⟨h, id, he⟩
        · exact b h
        · first
            | (cases he; done)
            | exact hc h
      rcases h with h | h
      · exact hstart { s with st := st, buf := _, put := _, rd := _, wr := _, openId := _, closeId := _, opens := _, closes := _ } s' a hst h
      · rw [h]; exact ⟨a, hst⟩
    · unfold deref at h
      split at h
      · cases h
      · split at h <;> (simp only [Option.some.injEq] at h; subst h; exact ⟨a, by simp⟩)

/-- If no callback gave an error and no close came during an open: an open gensio with nothing pending
has no data for a user who has enabled reads and no room for one who has enabled writes, so no callback
is owed to him. -/
theorem C152_awake_partial (readbuf : Nat) (noecho : Bool) (data : Option (List UInt8)) (ops : List Op) {s : E}
    (e : run (E.new readbuf noecho data) ops = some s) (hc : calm (E.new readbuf noecho data) ops) (hp : s.queued = false ∧ s.pc = none)
    (ho : s.st = .open) : (s.rd = true → s.buf = []) ∧ (s.wr = true → s.cap ≤ s.buf.length) := by
  obtain ⟨s', e', h⟩ := inv_run ops (inv_new readbuf noecho data)
  rw [e] at e'
  cases e'
  have hn : ∀ (ops : List Op) (t : E), t.err = none ∧ t.st ≠ .inOpenClose → calm t ops → run t ops = some s → s.err = none := by
    intro ops
    induction ops with
    | nil => intro t ht _ et; cases et; exact ht.1
    | cons o os ih =>
      intro t ht hc et
      rw [run] at et
      cases e1 : step t o with
      | none => rw [e1] at et; cases et
      | some t1 => rw [e1] at et; exact ih t1 (noerr_step ht hc.1 e1) (hc.2 t1 e1) et
  have herr := hn ops _ (by cases data <;> exact ⟨rfl, by simp [E.new]⟩) hc e
  have hpend : s.pend = false := by rw [h.pend, hp.1, hp.2]; rfl
  rcases h.awake hpend ho with ha | ha
  · exact absurd herr ha
  · exact ha

/-- A read enabled in the write callback of a full round. -/
example : (match run (E.new 3 false none) [.open (some 1), .setWrite true, .run 0, .ret false 0 0, .write [1, 2, 3], .setRead true, .ret false 0 9] with
    | some s => s.evs = [.opened 1 none, .writeReady, .read [1, 2, 3]] | none => false) = true := by decide +kernel

/-- If the write callback gives an error after it has written data and enabled reads, the data waits
with nothing scheduled to deliver it. -/
theorem C152_error_violated :
    (match run (E.new 100 false none) [.open (some 1), .setWrite true, .run 0, .ret false 0 0, .setRead true, .write [1, 2], .ret true 0 0] with
    | some s => s.evs = [.opened 1 none, .writeReady] ∧ s.st = .open ∧ s.rd = true ∧ s.buf = [1, 2] ∧ s.pend = false ∧ s.queued = false | none => false) = true := by
  decide +kernel

/-- With `data` and `noecho` the end of the data is to be reported; a read enabled in a write callback
when all was read is not told of it. -/
theorem C152_end_violated :
    (match run (E.new 100 true (some [1])) [.open (some 1), .setRead true, .run 0, .ret false 0 0, .ret false 1 0, .ret false 0 0, .setWrite true, .run 0,
      .setRead true, .setWrite false, .ret false 0 0] with
    | some s => s.evs = [.opened 1 none, .read [1], .remclose, .writeReady] ∧ s.st = .open ∧ s.rd = true ∧ s.just = true ∧ s.buf = [] ∧ s.pend = false | none => false) = true := by
  decide +kernel

end Gensio.Echo
