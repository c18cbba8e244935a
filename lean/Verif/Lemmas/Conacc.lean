import Verif.Model.Conacc

/-!
# Invariant of the accepter that makes connections

What the connection the accepter knows of can look like (`Ph`), how that goes with the states of the two halves, and who holds
the references.  It holds in runs where the user is careful (`careful`).
-/
namespace Gensio.Conacc

/-- Where the connection the accepter knows of is. -/
inductive Ph
  | opening | cb1 (e : Bool) | cb2 | cb3e (io : Bool) (ch : Ch) | cb3 | cb4 | live | closing (u : Bool) (id : Option Nat) | mid (u : Bool)
  | shut0 | shut1 | shut2 | freed
deriving DecidableEq

def Ph.conn : Ph → Conn
  | .opening => { st := .inOpen, ch := .opening, opn := true }
  | .cb1 e => { st := .inOpen, ch := if e then .closed else .opened, pc := .od1 e }
  | .cb2 => { st := .inOpen, ch := .opened, pc := .od2 }
  | .cb3e io ch => { st := .inOpen, ch, io, pc := .od3 true }
  | .cb3 => { st := .opened, ch := .opened, io := true, pc := .od3 false }
  | .cb4 => { st := .opened, ch := .opened, io := true, pc := .od4 }
  | .live => { st := .opened, ch := .opened, io := true, user := true }
  | .closing u id => { st := .inClose, ch := .closing, io := true, ref := if u then 2 else 1, cdone := id, user := u }
  | .mid u => { st := .inClose, ch := .closed, io := true, ref := if u then 2 else 1, mid := true, user := u }
  | .shut0 => { st := .inOpen, ch := .closing, shut := true, opn := true }
  | .shut1 => { st := .inOpen, ch := .closing, shut := true, pc := .od1 true }
  | .shut2 => { st := .inOpen, ch := .closing, shut := true }
  | .freed => { st := .inOpen, ch := .closed, shut := true, gone := true }

/-- A connection that was closed and that the user has not freed. -/
def oldConn : Conn := { st := .closed, ch := .closed, io := true, user := true }

/-- A connection of which nothing is left to do: its memory is freed, or it was not made yet. -/
def Dead (n j : Nat) (c : Conn) : Prop :=
  c.user = false ∧ c.mid = false ∧ c.pc = .idle ∧ (c.gone = true ∨ (n ≤ j ∧ c.opn = false ∧ c.ch = .closed))

/-- Nothing but what the user holds. -/
def Settled : Option Ph → Prop
  | none | some .cb4 | some .live | some (.closing _ _) | some (.mid _) => True
  | _ => False

/-- How the connection goes with the state. -/
def compat (st : NSt) (p : Option Ph) : Prop :=
  match st with
  | .opening => match p with
    | some .opening | some (.cb1 _) | some .cb2 | some (.cb3e _ _) | some .cb3 => True
    | _ => False
  | .openShutdown => match p with
    | some .shut0 | some .shut1 | some .shut2 | some .freed | none => True
    | _ => False
  | .openDisable => match p with
    | some .shut0 | some .shut1 | some .shut2 | some .freed => True
    | _ => False
  | .ready => Settled p ∧ p ≠ none
  | .waiting | .dead => p = none
  | _ => Settled p

/-- How the state goes with that of the upper half. -/
def baseOk (base : Base) (st : NSt) (shDone rep : Bool) : Prop :=
  match base with
  | .closed => st = .shutdown ∧ shDone = false ∧ rep = false
  | .opened => st ≠ .inShutdown ∧ st ≠ .openShutdown ∧ shDone = false ∧ rep = false
  | .inShut => ((st = .inShutdown ∨ st = .openShutdown) ∧ shDone = true ∧ rep = false) ∨ (st = .shutdown ∧ shDone = false ∧ rep = true)

/-- The connection the accepter knows of. -/
def curOk (cur : Option Nat) (n : Nat) (conns : Nat → Conn) : Option Ph → Prop
  | none => cur = none
  | some ph => ∃ i, cur = some i ∧ i < n ∧ conns i = ph.conn

/-- The reference of the connection. -/
def held : Option Ph → Nat
  | none => 0
  | some _ => 1

/-- A connection that was given up while it was opened. -/
def given : Option Ph → Nat
  | some .freed => 1
  | _ => 0

/-- The invariant; `k` is the number of references held by the step that is under way. -/
structure InvK (k : Nat) (s : Na) (p : Option Ph) : Prop where
  cur : curOk s.cur s.n s.conns p
  old : ∀ j, s.cur ≠ some j → Dead s.n j (s.conns j) ∨ s.conns j = oldConn
  gone0 : s.gone = true ↔ s.ref = 0
  ref : s.ref = (if s.accGone then 0 else 1) + (if s.tm = .idle then 0 else 1) + s.timers + (if s.defer then 1 else 0) + s.deferSw +
    s.finEn + s.drops + held p + k
  sc : s.sc = given p
  comp : compat s.st p
  running : s.tm = .running → s.st = .waiting ∧ s.timers = 0
  stopping : s.tm = .stopping → (s.st = .inDisable ∨ s.st = .inShutdown) ∧ s.defer = false ∧ s.deferSw = 0 ∧ s.finEn = 0 ∧ s.timers = 0
  timers : s.timers = 0 ∨ (s.timers = 1 ∧ s.st = .waiting ∧ s.tm = .idle)
  waiting : s.st = .waiting → s.tm = .running ∨ s.timers = 1
  fin : s.finEn = 0 ∨ (s.finEn = 1 ∧ s.enDone = none ∧ ((s.st = .inShutdown ∧ s.defer = false ∧ s.deferSw = 0 ∧ s.tm = .idle) ∨
    (s.st = .openShutdown ∧ p = none)))
  osh : s.st = .openShutdown → p = none → s.finEn = 1
  ensh : s.base = .inShut → 0 < s.deferSw → s.enDone = none
  base : baseOk s.base s.st s.shDone s.rep
  pend : s.st = .inShutdown ∨ s.st = .inDisable ∨ s.st = .inDisableRestart →
    s.defer = true ∨ 0 < s.deferSw ∨ s.tm = .stopping ∨ 0 < s.finEn ∨ 0 < k
  acc : s.accGone = true → s.base = .closed ∧ s.freed = true ∧ s.enDone = none ∧ p ≠ some .cb3 ∧ p ≠ some .cb4
  retry : s.retry = true → s.st ≠ .dead
  enp : s.enDone ≠ none → s.defer = true ∨ s.tm = .stopping ∨ s.st = .openDisable ∨ s.st = .openShutdown

abbrev Inv := InvK 0

/-- Somebody will end what was asked for. -/
def pending (s : Na) : Prop := s.st = .inShutdown ∨ s.st = .inDisable ∨ s.st = .inDisableRestart →
  s.defer = true ∨ 0 < s.deferSw ∨ s.tm = .stopping ∨ 0 < s.finEn

theorem Inv.pending {s : Na} {p} (h : Inv s p) : pending s := by
  intro hs
  have := h.pend hs
  simpa using this

/-- The timer can be stopped and nothing else is under way. -/
def okStop (s : Na) : Prop := s.tm = .running ∧ s.defer = false ∧ s.deferSw = 0

/-- No report of the open is under way. -/
def calm (s : Na) : Prop := ∀ i, s.cur = some i → (s.conns i).pc = .idle

/-- What a careful user does not do: stop the accepter while its timer runs out, while an open is reported, or, when it waits, while
another request is under way; enable it again before a disable is done; close a connection twice; disable a connection; ask for
an address while a connection is given up. -/
def careful (s : Na) : Op → Prop
  | .shutdown | .free => (s.st = .waiting → okStop s) ∧ (s.st = .opening → calm s) ∧ (0 < s.deferSw → s.enDone = none)
  | .enable en _ _ => s.enDone = none →
      (s.st = .inDisable → s.tm ≠ .stopping) ∧ (s.st = .waiting → en = false → okStop s) ∧ (s.st = .opening → en = false → calm s) ∧
      (s.st = .openDisable → en = false)
  | .closeIo i _ _ => (s.conns i).st = .opened
  | .disableIo i _ => (s.conns i).user = false
  | .control => s.sc = 0
  | _ => True

def Good (o : Option Na) : Prop := ∃ s p, o = some s ∧ Inv s p

theorem Good.mk' {s : Na} (p : Option Ph) (h : Inv s p) : Good (some s) := ⟨s, p, rfl, h⟩

attribute [local grind] held given compat Settled baseOk curOk Ph.conn oldConn Dead okStop calm careful

theorem setc_self (s : Na) (i : Nat) (c : Conn) : (s.setc i c).conns i = c := by simp [Na.setc]
theorem setc_ne (s : Na) (i j : Nat) (c : Conn) (h : j ≠ i) : (s.setc i c).conns j = s.conns j := by simp [Na.setc, h]

theorem init_inv (r : Bool) : Inv (init r) none := by
  constructor <;> simp [init, held, given, curOk, compat, Settled, baseOk, Dead]

theorem InvK.live {k s p} (h : InvK k s p) (hk : 0 < k ∨ 0 < s.drops ∨ s.defer = true ∨ 0 < s.deferSw ∨ 0 < s.finEn ∨ 0 < s.timers ∨
    s.tm ≠ .idle ∨ p ≠ none ∨ s.accGone = false) : s.gone = false := by
  have h3 := h.gone0
  have h4 := h.ref
  by_cases hg : s.gone = true
  · have := h3.1 hg
    exfalso
    have h5 : s.ref = 0 := this
    rw [h5] at h4
    have hh : p ≠ none → 0 < held p := by cases p <;> simp [held]
    rcases hk with hk | hk | hk | hk | hk | hk | hk | hk | hk
    all_goals first
      | omega
      | (have := hh hk; omega)
      | (simp [hk] at h4; done)
      | (simp [hk] at h4; omega)
  · simpa using hg


/-- Prove the parts of the invariant one by one. -/
local macro "iv" : tactic => `(tactic| first | assumption | (dsimp only; omega) | (simp_all; done) | (simp_all; omega) | grind)

theorem deref_good {s : Na} {p} (h : InvK 1 s p) (hpd : pending s) : Good (deref s) := by
  have hg := h.live (by simp)
  obtain ⟨h1, h2, h3, h4, h5, h6, h7, h8, h9, h10, h11, h12, h13, h14, h15, h16, h17, h18⟩ := h
  unfold pending at hpd
  clear h15
  unfold deref
  split
  · omega
  · split <;> (refine Good.mk' p ?_; constructor <;> iv)

theorem drop_step {s : Na} {p} (h : Inv s p) : Good (step s .drop) := by
  by_cases hd : s.drops = 0
  · simp only [step, hd, if_true]
    exact Good.mk' p h
  · have hg := h.live (by omega)
    simp only [step, hd, hg, if_false, Bool.false_eq_true]
    have hpd := Inv.pending h
    refine deref_good (p := p) ?_ ?_
    rotate_left
    · exact hpd
    obtain ⟨h1, h2, h3, h4, h5, h6, h7, h8, h9, h10, h11, h12, h13, h14, h15, h16, h17, h18⟩ := h
    constructor <;> iv

theorem finish2_good {s : Na} {p} (h : InvK 1 { s with st := .inShutdown } p)
    (hf : s.finEn = 0) (ht : s.tm = .idle) (hen : s.enDone = none) : Good (finish2 s) := by
  obtain ⟨h1, h2, h3, h4, h5, h6, h7, h8, h9, h10, h11, h12, h13, h14, h15, h16, h17, h18⟩ := h
  dsimp only at h1 h2 h3 h4 h5 h6 h7 h8 h9 h10 h11 h12 h13 h14 h15 h16 h17 h18
  have hb : s.base = .inShut := by revert h14; cases s.base <;> simp [baseOk]
  have ha : s.accGone = false := by
    by_cases ha : s.accGone = true
    · have := (h16 ha).1; simp [hb] at this
    · simpa using ha
  have hs : s.shDone = true := by
    rw [hb] at h14
    simp_all [baseOk]
  simp only [finish2, hs, ha, if_true, if_false, Bool.false_eq_true]
  refine Good.mk' p ?_
  constructor <;> iv

theorem old_setc {s : Na} {i : Nat} {c : Conn} (hc : s.cur = some i) (h : ∀ j, s.cur ≠ some j → Dead s.n j (s.conns j) ∨ s.conns j = oldConn) :
    ∀ j, s.cur ≠ some j → Dead s.n j ((s.setc i c).conns j) ∨ (s.setc i c).conns j = oldConn := by
  intro j hj
  rw [setc_ne _ _ _ _ (fun e => hj (by rw [hc, e]))]
  exact h j hj

theorem old_clear {s : Na} {i : Nat} {c : Conn} (hc : s.cur = some i) (h : ∀ j, s.cur ≠ some j → Dead s.n j (s.conns j) ∨ s.conns j = oldConn)
    (hd : Dead s.n i c ∨ c = oldConn) : ∀ j, (none : Option Nat) ≠ some j → Dead s.n j ((s.setc i c).conns j) ∨ (s.setc i c).conns j = oldConn := by
  intro j _
  by_cases hj : j = i
  · subst hj; rw [setc_self]; exact hd
  · rw [setc_ne _ _ _ _ hj]; exact h j (by rw [hc]; simpa using fun e => hj e.symm)

theorem cur_setc {s : Na} {i : Nat} (ph : Ph) (hc : s.cur = some i) (hn : i < s.n) :
    curOk (s.setc i ph.conn).cur (s.setc i ph.conn).n (s.setc i ph.conn).conns (some ph) := ⟨i, hc, hn, setc_self _ _ _⟩

/-- The connection goes from one place to another and nothing else changes. -/
theorem move {s : Na} {ph : Ph} (h : Inv s (some ph)) {i : Nat} (hc : s.cur = some i) (ph' : Ph) (hn : ph ≠ .freed) (hn' : ph' ≠ .freed)
    (hk : compat s.st (some ph')) (ha : s.accGone = true → ph' ≠ .cb3 ∧ ph' ≠ .cb4) : Inv (s.setc i ph'.conn) (some ph') := by
  obtain ⟨h1, h2, h3, h4, h5, h6, h7, h8, h9, h10, h11, h12, h13, h14, h15, h16, h17, h18⟩ := h
  have hi : i < s.n := by
    obtain ⟨j, e1, e2, _⟩ := h1
    rw [hc] at e1; cases e1; exact e2
  refine ⟨cur_setc _ hc hi, old_setc hc h2, h3, h4, ?_, hk, h7, h8, h9, h10, ?_, by simp, h13, h14, h15, ?_, h17, h18⟩
  · show s.sc = _
    have e1 : given (some ph) = 0 := by cases ph <;> first | rfl | exact absurd rfl hn
    have e2 : given (some ph') = 0 := by cases ph' <;> first | rfl | exact absurd rfl hn'
    rw [h5, e1, e2]
  · rcases h11 with h | ⟨a, b, c | c⟩
    · exact .inl h
    · exact .inr ⟨a, b, .inl c⟩
    · exact absurd c.2 (by simp)
  · intro hh
    have := h16 hh
    have h' := ha hh
    exact ⟨this.1, this.2.1, this.2.2.1, by simpa using h'.1, by simpa using h'.2⟩

/-- What connection `i` is. -/
theorem which {k s p} (h : InvK k s p) (i : Nat) :
    (∃ ph, p = some ph ∧ s.cur = some i ∧ s.conns i = ph.conn) ∨ (s.cur ≠ some i ∧ (Dead s.n i (s.conns i) ∨ s.conns i = oldConn)) := by
  by_cases hc : s.cur = some i
  · left
    cases p with
    | none => have := h.cur; simp [curOk, hc] at this
    | some ph =>
      obtain ⟨j, e1, _, e3⟩ := h.cur
      rw [hc] at e1; cases e1
      exact ⟨ph, rfl, hc, e3⟩
  · exact .inr ⟨hc, h.old i hc⟩

theorem opened_step {s : Na} {p} (h : Inv s p) (i : Nat) (err : Bool) : Good (step s (.opened i err)) := by
  simp only [step]
  rcases which h i with ⟨ph, rfl, hc, e⟩ | ⟨hc, hd | e⟩
  · rw [e]
    cases ph <;> simp only [Ph.conn, Bool.not_true, Bool.not_false, Bool.false_eq_true, or_self, or_false, or_true, true_or, if_true, if_false, reduceCtorEq]
    case opening => exact Good.mk' _ (move h hc (.cb1 err) (by simp) (by simp) (by have := h.comp; revert this; cases s.st <;> simp [compat, Settled]) (by simp))
    case shut0 => exact Good.mk' _ (move h hc .shut1 (by simp) (by simp) (by have := h.comp; revert this; cases s.st <;> simp [compat, Settled]) (by simp))
    all_goals exact Good.mk' _ h
  · obtain ⟨_, _, _, h4⟩ := hd
    rw [if_pos (by rcases h4 with h4 | h4 <;> simp [h4])]
    exact Good.mk' p h
  · rw [e, if_pos (by simp [oldConn])]
    exact Good.mk' p h

theorem closed_step {s : Na} {p} (h : Inv s p) (i : Nat) : Good (step s (.closed i)) := by
  simp only [step]
  rcases which h i with ⟨ph, rfl, hc, e⟩ | ⟨hc, hd | e⟩
  · rw [e]
    cases ph <;> simp only [Ph.conn, Bool.not_true, Bool.not_false, Bool.false_eq_true, or_self, or_false, false_or, or_true, true_or, if_true, if_false, reduceCtorEq, ne_eq, not_true_eq_false, not_false_eq_true]
    case closing u id =>
      have hm := move h hc (.mid u) (by simp) (by simp) (by have := h.comp; revert this; cases s.st <;> simp [compat, Settled]) (by simp)
      cases id with
      | none => exact Good.mk' _ hm
      | some id =>
        dsimp only
        refine Good.mk' (some (.mid u)) ?_
        obtain ⟨h1, h2, h3, h4, h5, h6, h7, h8, h9, h10, h11, h12, h13, h14, h15, h16, h17, h18⟩ := hm
        exact ⟨h1, h2, h3, h4, h5, h6, h7, h8, h9, h10, h11, h12, h13, h14, h15, h16, h17, h18⟩
    case shut2 =>
      refine Good.mk' (some .freed) ?_
      have hcomp := h.comp
      obtain ⟨h1, h2, h3, h4, h5, h6, h7, h8, h9, h10, h11, h12, h13, h14, h15, h16, h17, h18⟩ := h
      have hi : i < s.n := by
        obtain ⟨j, e1, e2, _⟩ := h1
        rw [hc] at e1; cases e1; exact e2
      refine ⟨cur_setc .freed hc hi, old_setc hc h2, h3, h4, by simpa [given] using h5, by revert hcomp; show _ → compat s.st _; cases s.st <;> simp [compat, Settled], h7, h8, h9, h10, ?_, by simp, h13, h14, h15, ?_, h17, h18⟩
      · rcases h11 with h | ⟨a, b, c | c⟩
        · exact .inl h
        · exact .inr ⟨a, b, .inl c⟩
        · exact absurd c.2 (by simp)
      · intro hh
        have := h16 hh
        exact ⟨this.1, this.2.1, this.2.2.1, by simp, by simp⟩
    all_goals exact Good.mk' _ h
  · obtain ⟨_, _, _, h4⟩ := hd
    rw [if_pos (by rcases h4 with h4 | h4 <;> simp [h4])]
    exact Good.mk' p h
  · rw [e, if_pos (by simp [oldConn])]
    exact Good.mk' p h

theorem timer_step {s : Na} {p} (h : Inv s p) : Good (step s .timer) := by
  simp only [step]
  split
  · rename_i ht
    refine Good.mk' p ?_
    obtain ⟨h1, h2, h3, h4, h5, h6, h7, h8, h9, h10, h11, h12, h13, h14, h15, h16, h17, h18⟩ := h
    have := h7 ht
    constructor <;> iv
  · exact Good.mk' p h

theorem report_step {s : Na} {p} (h : Inv s p) : Good (step s .report) := by
  simp only [step]
  split
  · exact Good.mk' p h
  · rename_i hr
    simp at hr
    obtain ⟨h1, h2, h3, h4, h5, h6, h7, h8, h9, h10, h11, h12, h13, h14, h15, h16, h17, h18⟩ := h
    have hb : s.base = .inShut ∧ s.st = .shutdown ∧ s.shDone = false := by
      revert h14; cases s.base <;> simp [baseOk, hr]
    obtain ⟨hb1, hb2, hb3⟩ := hb
    have ha : s.accGone = false := by
      by_cases ha : s.accGone = true
      · have := (h16 ha).1; simp [hb1] at this
      · simpa using ha
    split
    · refine Good.mk' p ?_
      refine ⟨h1, h2, h3, h4, h5, h6, h7, h8, h9, h10, h11, h12, by simp, by simp [baseOk, hb2, hb3], h15, by simp [ha], h17, h18⟩
    · refine Good.mk' p ?_
      refine ⟨h1, h2, h3, h4, h5, h6, h7, h8, h9, h10, h11, h12, by simp [Na.say], by simp [baseOk, hb2, hb3, Na.say], h15, by simp [ha, Na.say], h17, h18⟩

/-! ### What the user does with connections -/

theorem closeIo_step {s : Na} {p} (h : Inv s p) (i id : Nat) (ok : Bool) (hca : careful s (.closeIo i id ok)) : Good (step s (.closeIo i id ok)) := by
  have hca : (s.conns i).st = .opened := hca
  simp only [step]
  split
  · exact Good.mk' p h
  rename_i hu
  rcases which h i with ⟨ph, rfl, hc, e⟩ | ⟨hc, hd | e⟩
  · rw [e] at hu hca ⊢
    cases ph <;> simp [Ph.conn] at hu hca
    unfold iClose
    rw [e]
    simp only [Ph.conn, closeOk, Bool.false_eq_true, if_false, or_true, decide_true, if_true]
    exact Good.mk' _ (move h hc (.closing true (some id)) (by simp) (by simp) (by have := h.comp; revert this; cases s.st <;> simp [compat, Settled]) (by simp))
  · simp [hd.1] at hu
  · rw [e] at hca; cases hca

theorem freed_old {s : Na} {p} (h : Inv s p) {i : Nat} (hc : s.cur ≠ some i) {c : Conn} (hd : Dead s.n i c) : Inv (s.setc i c) p := by
  obtain ⟨h1, h2, h3, h4, h5, h6, h7, h8, h9, h10, h11, h12, h13, h14, h15, h16, h17, h18⟩ := h
  refine ⟨?_, ?_, h3, h4, h5, h6, h7, h8, h9, h10, h11, h12, h13, h14, h15, h16, h17, h18⟩
  · cases p with
    | none => exact h1
    | some ph =>
      obtain ⟨j, e1, e2, e3⟩ := h1
      exact ⟨j, e1, e2, by rw [setc_ne _ _ _ _ (fun e => hc (by rw [e1, e]))]; exact e3⟩
  · intro j hj
    by_cases e : j = i
    · subst e; rw [setc_self]; exact .inl hd
    · rw [setc_ne _ _ _ _ e]; exact h2 j hj

theorem setc_setc (s : Na) (i : Nat) (c d : Conn) : (s.setc i c).setc i d = s.setc i d := by
  simp only [Na.setc]
  congr
  funext j
  split <;> rfl

theorem connFree_live {s : Na} (i : Nat) (ok : Bool) (e : s.conns i = { Ph.live.conn with user := false }) :
    connFree s i ok = some (s.setc i (Ph.closing false none).conn) := by
  unfold connFree iClose
  rw [e]
  simp only [Ph.conn, closeOk, Bool.false_eq_true, if_false, or_true, decide_true, if_true, Option.bind_some]
  unfold cderef
  rw [setc_self]
  simp [setc_setc]

theorem freeIo_step {s : Na} {p} (h : Inv s p) (i : Nat) (ok : Bool) : Good (step s (.freeIo i ok)) := by
  simp only [step]
  split
  · exact Good.mk' p h
  rename_i hu
  rcases which h i with ⟨ph, rfl, hc, e⟩ | ⟨hc, hd | e⟩
  · rw [e] at hu ⊢
    cases ph <;> simp [Ph.conn] at hu
    case live =>
      rw [connFree_live i ok (by rw [setc_self]), setc_setc]
      exact Good.mk' _ (move h hc (.closing false none) (by simp) (by simp) (by have := h.comp; revert this; cases s.st <;> simp [compat, Settled]) (by simp))
    case closing u id =>
      subst hu
      unfold connFree cderef
      rw [setc_self]
      simp only [Ph.conn, Bool.false_eq_true, if_false, if_true, reduceCtorEq, or_self, Option.bind_some, setc_self, setc_setc]
      exact Good.mk' _ (move h hc (.closing false id) (by simp) (by simp) (by have := h.comp; revert this; cases s.st <;> simp [compat, Settled]) (by simp))
    case mid u =>
      subst hu
      unfold connFree cderef
      rw [setc_self]
      simp only [Ph.conn, Bool.false_eq_true, if_false, if_true, reduceCtorEq, or_self, Option.bind_some, setc_self, setc_setc]
      exact Good.mk' _ (move h hc (.mid false) (by simp) (by simp) (by have := h.comp; revert this; cases s.st <;> simp [compat, Settled]) (by simp))
  · simp [hd.1] at hu
  · rw [e]
    unfold connFree cderef
    rw [setc_self]
    simp only [oldConn, Bool.false_eq_true, if_false, if_true, reduceCtorEq, or_self, Option.bind_some, setc_self, setc_setc]
    exact Good.mk' p (freed_old h hc (by simp [Dead]))

/-! ### The report of an open -/

theorem tm_idle {k s p} (h : InvK k s p) (h1 : s.st ≠ .waiting) (h2 : s.st ≠ .inDisable) (h3 : s.st ≠ .inShutdown) : s.tm = .idle := by
  have a := h.running
  have b := h.stopping
  revert a b
  cases s.tm <;> simp_all

theorem base_of {k s p} (h : InvK k s p) (h1 : s.st ≠ .shutdown) (h2 : s.st ≠ .inShutdown) (h3 : s.st ≠ .openShutdown) : s.base = .opened := by
  have a := h.base
  revert a
  cases s.base <;> simp_all [baseOk]

theorem acc_of {k s p} (h : InvK k s p) (h1 : s.base ≠ .closed) : s.accGone = false := by
  by_cases ha : s.accGone = true
  · exact absurd (h.acc ha).1 h1
  · simpa using ha

theorem dead_gone {n i : Nat} {c : Conn} (h1 : c.user = false) (h2 : c.mid = false) : Dead n i { c with pc := .idle, gone := true } := by
  simp [Dead, h1, h2]

theorem failed_open {s : Na} {io : Bool} {ch : Ch} (h : Inv s (some (.cb3e io ch))) {i : Nat} (hc : s.cur = some i) :
    Good (openDone3 s i true) := by
  have hst : s.st = .opening := by
    have := h.comp
    revert this
    cases s.st <;> simp [compat, Settled]
  have ht := tm_idle h (by simp [hst]) (by simp [hst]) (by simp [hst])
  have hb := base_of h (by simp [hst]) (by simp [hst]) (by simp [hst])
  have hacc := acc_of h (by simp [hb])
  have hg := h.live (by simp)
  have ei : s.conns i = (Ph.cb3e io ch).conn := by
    obtain ⟨j, e1, _, e3⟩ := h.cur
    rw [hc] at e1; cases e1; exact e3
  have hd : Dead s.n i { s.conns i with pc := .idle, gone := true } := dead_gone (by rw [ei]; rfl) (by rw [ei]; rfl)
  obtain ⟨h1, h2, h3, h4, h5, h6, h7, h8, h9, h10, h11, h12, h13, h14, h15, h16, h17, h18⟩ := h
  have hold := old_clear hc h2 (.inl hd)
  unfold openDone3
  rw [hst]
  simp only [hg, if_false, if_true, Bool.false_eq_true]
  unfold failed
  by_cases hr : s.retry = true
  · simp only [hr, if_true, startRetry, ht, ne_eq, not_true_eq_false, if_false, Option.bind_some]
    apply deref_good (p := none) ?_ (by simp [pending, Na.setc])
    refine ⟨rfl, hold, ?_, ?_, ?_, ?_, ?_, ?_, ?_, ?_, ?_, ?_, ?_, ?_, ?_, ?_, ?_, ?_⟩ <;> simp only [Na.setc] <;> iv
  · simp only [hr, if_false, Option.bind_some, Bool.false_eq_true]
    unfold deferOp
    split
    all_goals
      apply deref_good (p := none) ?_ (by simp [pending, Na.setc])
      refine ⟨rfl, hold, ?_, ?_, ?_, ?_, ?_, ?_, ?_, ?_, ?_, ?_, ?_, ?_, ?_, ?_, ?_, ?_⟩ <;> simp only [Na.setc] <;> iv

theorem openDone_step {s : Na} {p} (h : Inv s p) (i : Nat) (ok : Bool) : Good (step s (.openDone i ok)) := by
  simp only [step]
  rcases which h i with ⟨ph, rfl, hc, e⟩ | ⟨hc, hd | e⟩
  · have hg := h.live (by simp)
    have hcomp := h.comp
    rw [e]
    cases ph <;> simp only [Ph.conn, Bool.false_eq_true, if_false]
    case cb1 err =>
      have hst : s.st = .opening := by revert hcomp; cases s.st <;> simp [compat, Settled]
      unfold openDone1
      rw [e, hst]
      simp only [hg, Bool.false_eq_true, if_false, reduceCtorEq, or_self]
      cases err
      · exact Good.mk' _ (move h hc .cb2 (by simp) (by simp) (by rw [hst]; simp [compat]) (by simp))
      · exact Good.mk' _ (move h hc (.cb3e false .closed) (by simp) (by simp) (by rw [hst]; simp [compat]) (by simp))
    case shut1 =>
      have hst : s.st = .openShutdown ∨ s.st = .openDisable := by revert hcomp; cases s.st <;> simp [compat, Settled]
      unfold openDone1
      rw [e, if_pos hst]
      simp only [hg, Bool.false_eq_true, if_false]
      exact Good.mk' _ (move h hc .shut2 (by simp) (by simp) (by rcases hst with hst | hst <;> rw [hst] <;> simp [compat]) (by simp))
    case cb2 =>
      have hst : s.st = .opening := by revert hcomp; cases s.st <;> simp [compat, Settled]
      have hb := base_of h (by simp [hst]) (by simp [hst]) (by simp [hst])
      have hacc := acc_of h (by simp [hb])
      unfold openDone2
      rw [e]
      cases ok
      · simp only [Bool.not_false, if_true]
        exact Good.mk' _ (move h hc (.cb3e false .opened) (by simp) (by simp) (by rw [hst]; simp [compat]) (by simp))
      · simp only [Bool.not_true, if_false, Bool.false_eq_true, hacc, hb, ne_eq, not_true_eq_false]
        exact Good.mk' _ (move h hc .cb3 (by simp) (by simp) (by rw [hst]; simp [compat]) (by simp [hacc]))
    case cb3e io ch => exact failed_open h hc
    case cb3 =>
      have hst : s.st = .opening := by revert hcomp; cases s.st <;> simp [compat, Settled]
      have hb := base_of h (by simp [hst]) (by simp [hst]) (by simp [hst])
      have hacc := acc_of h (by simp [hb])
      have ht := tm_idle h (by simp [hst]) (by simp [hst]) (by simp [hst])
      unfold openDone3
      rw [e, hst]
      simp only [hg, Bool.false_eq_true, if_false]
      obtain ⟨h1, h2, h3, h4, h5, h6, h7, h8, h9, h10, h11, h12, h13, h14, h15, h16, h17, h18⟩ := h
      have hi : i < s.n := by
        obtain ⟨j, e1, e2, _⟩ := h1
        rw [hc] at e1; cases e1; exact e2
      refine Good.mk' (some .cb4) ?_
      refine ⟨cur_setc .cb4 hc hi, old_setc hc h2, h3, h4, h5, ?_, ?_, ?_, ?_, ?_, ?_, ?_, h13, ?_, ?_, ?_, ?_, ?_⟩ <;> simp only [Na.setc] <;> iv
    case cb4 =>
      unfold openDone4
      rw [e]
      dsimp only
      split
      · refine Good.mk' (some .live) ?_
        rw [setc_self, setc_setc]
        have hm := move h hc .live (by simp) (by simp) (by revert hcomp; cases s.st <;> simp [compat, Settled]) (by simp)
        obtain ⟨h1, h2, h3, h4, h5, h6, h7, h8, h9, h10, h11, h12, h13, h14, h15, h16, h17, h18⟩ := hm
        exact ⟨h1, h2, h3, h4, h5, h6, h7, h8, h9, h10, h11, h12, h13, h14, h15, h16, h17, h18⟩
      · rw [connFree_live i ok (by rw [setc_self]; rfl), setc_setc]
        exact Good.mk' _ (move h hc (.closing false none) (by simp) (by simp) (by revert hcomp; cases s.st <;> simp [compat, Settled]) (by simp))
    all_goals exact Good.mk' _ h
  · obtain ⟨_, _, h3, _⟩ := hd
    rw [h3]
    exact Good.mk' p h
  · rw [e]
    exact Good.mk' p h

/-! ### Starting -/

theorem start_good {k s p} (h : InvK k { s with st := .disabled, base := .opened } p) (ht : s.tm = .idle) (htm : s.timers = 0)
    (hf : s.finEn = 0) (ok : Bool) :
    ∃ s' p', start s ok = some s' ∧ InvK k { s' with base := .opened } p' ∧ s'.base = s.base ∧
      (s'.st = .ready ∨ s'.st = .opening ∨ s'.st = .waiting ∨ (s'.st = .dead ∧ p' = none)) ∧ s'.enDone = s.enDone ∧ s'.freed = s.freed ∧
      s'.finEn = 0 := by
  have hacc : s.accGone = false := by
    by_cases ha : s.accGone = true
    · have := (h.acc ha).1; simp at this
    · simpa using ha
  obtain ⟨h1, h2, h3, h4, h5, h6, h7, h8, h9, h10, h11, h12, h13, h14, h15, h16, h17, h18⟩ := h
  dsimp only at h1 h2 h3 h4 h5 h6 h7 h8 h9 h10 h11 h12 h13 h14 h15 h16 h17 h18
  unfold start
  by_cases hc : s.cur.isSome = true
  · simp only [hc, if_true]
    refine ⟨_, p, rfl, ?_, rfl, .inl rfl, rfl, rfl, hf⟩
    have hp : p ≠ none := by
      intro e; subst e
      simp only [curOk] at h1
      simp [h1] at hc
    refine ⟨h1, h2, h3, h4, h5, ?_, ?_, ?_, ?_, ?_, ?_, ?_, h13, ?_, ?_, ?_, ?_, ?_⟩ <;> iv
  · have hc' : s.cur = none := by simpa using hc
    have hp : p = none := by
      cases p with
      | none => rfl
      | some ph => obtain ⟨i, e, _⟩ := h1; rw [hc'] at e; cases e
    subst hp
    simp only [hc, if_false, Bool.false_eq_true]
    split
    · refine ⟨_, some .opening, rfl, ?_, rfl, .inr (.inl rfl), rfl, rfl, hf⟩
      refine ⟨⟨s.n, rfl, Nat.lt_succ_self _, setc_self _ _ _⟩, ?_, ?_, ?_, ?_, ?_, ?_, ?_, ?_, ?_, ?_, ?_, h13, ?_, ?_, ?_, ?_, ?_⟩
      · intro j hj
        have hj : j ≠ s.n := fun e => hj (by rw [e])
        show Dead (s.n + 1) j ((s.setc s.n _).conns j) ∨ (s.setc s.n _).conns j = oldConn
        rw [setc_ne _ _ _ _ hj]
        rcases h2 j (by rw [hc']; simp) with ⟨a, b, c, d | d⟩ | d
        · exact .inl ⟨a, b, c, .inl d⟩
        · exact .inl ⟨a, b, c, .inr ⟨by omega, d.2⟩⟩
        · exact .inr d
      all_goals simp only [Na.setc]
      all_goals iv
    · unfold failed
      by_cases hr : s.retry = true
      · simp only [hr, if_true, startRetry, ht, ne_eq, not_true_eq_false, if_false]
        refine ⟨_, none, rfl, ?_, rfl, .inr (.inr (.inl rfl)), rfl, rfl, hf⟩
        refine ⟨h1, h2, ?_, ?_, ?_, ?_, ?_, ?_, ?_, ?_, ?_, ?_, h13, ?_, ?_, ?_, ?_, ?_⟩ <;> dsimp only <;> iv
      · simp only [hr, if_false, Bool.false_eq_true]
        unfold deferOp
        split
        all_goals
          refine ⟨_, none, rfl, ?_, rfl, .inr (.inr (.inr ⟨rfl, rfl⟩)), rfl, rfl, hf⟩
          refine ⟨h1, h2, ?_, ?_, ?_, ?_, ?_, ?_, ?_, ?_, ?_, ?_, ?_, ?_, ?_, ?_, ?_, ?_⟩ <;> dsimp only <;> iv

theorem base_self {k} {s : Na} {p} (h : InvK k { s with base := .opened } p) (e : s.base = .opened) : InvK k s p := by
  cases s; simp only at e; subst e; exact h

/-- Start, and give back the reference that was held for it. -/
theorem start_deref {s : Na} {p} (h : InvK 1 { s with st := .disabled } p) (hb : s.base = .opened) (ht : s.tm = .idle) (htm : s.timers = 0)
    (hf : s.finEn = 0) (ok : Bool) : Good ((start s ok).bind deref) := by
  obtain ⟨s', p', e, hi, e1, e2, _⟩ := start_good (s := s) (p := p) (by cases s; simp only at hb; subst hb; exact h) ht htm hf ok
  rw [e]
  have e2 : s'.st = .ready ∨ s'.st = .opening ∨ s'.st = .waiting ∨ s'.st = .dead := by grind
  exact deref_good (base_self hi (by rw [e1, hb])) (by rcases e2 with e | e | e | e <;> simp [pending, e])

/-! ### Threads -/

theorem setc_comm (s : Na) {i j : Nat} (hij : i ≠ j) (c d : Conn) : (s.setc i c).setc j d = (s.setc j d).setc i c := by
  simp only [Na.setc]
  congr
  funext l
  by_cases h1 : l = j
  · subst h1; simp [Ne.symm hij]
  · simp [h1]

theorem deref_setc (s : Na) (i : Nat) (c : Conn) : deref (s.setc i c) = (deref s).map (·.setc i c) := by
  unfold deref
  by_cases h0 : s.ref = 0
  · simp [Na.setc, h0]
  · by_cases h1 : s.ref = 1
    · simp [Na.setc, h1]
    · simp [Na.setc, h0, h1]

theorem startRetry_setc (s : Na) (i : Nat) (c : Conn) : startRetry (s.setc i c) = (startRetry s).map (·.setc i c) := by
  unfold startRetry
  by_cases h0 : s.tm ≠ .idle
  · simp [Na.setc, h0]
  · simp [Na.setc] at h0 ⊢; simp [h0]

theorem start_setc (s : Na) {i : Nat} (hi : i < s.n) (c : Conn) (ok : Bool) : start (s.setc i c) ok = (start s ok).map (·.setc i c) := by
  unfold start
  by_cases h0 : s.cur.isSome = true
  · simp [Na.setc, h0]
  · rw [if_neg h0, if_neg (show ¬ (s.setc i c).cur.isSome = true from h0)]
    split
    · rw [show (s.setc i c).n = s.n from rfl, setc_comm s (by omega)]
      rfl
    · unfold failed
      rw [show (s.setc i c).retry = s.retry from rfl]
      split
      · exact startRetry_setc s i c
      · unfold deferOp
        by_cases hd : s.defer = true
        · simp [Na.setc, hd]
        · simp [Na.setc, hd]

/-- A connection that was closed is taken out. -/
theorem out {s : Na} {u : Bool} (h : Inv s (some (.mid u))) {i : Nat} (hc : s.cur = some i) {c : Conn} (hd : Dead s.n i c ∨ c = oldConn) :
    (s.st ≠ .ready → InvK 1 { (s.setc i c) with cur := none } none) ∧
    (s.st = .ready → InvK 1 { (s.setc i c) with cur := none, st := .disabled } none) := by
  have hcomp := h.comp
  obtain ⟨h1, h2, h3, h4, h5, h6, h7, h8, h9, h10, h11, h12, h13, h14, h15, h16, h17, h18⟩ := h
  have hold := old_clear hc h2 hd
  clear h1 h2
  constructor
  · intro hr
    refine ⟨rfl, hold, h3, ?_, h5, ?_, h7, h8, h9, h10, ?_, ?_, h13, h14, by intro _; simp, ?_, h17, h18⟩
    · exact h4
    · revert hcomp hr; simp only [Na.setc]; cases s.st <;> simp [compat, Settled]
    · rcases h11 with h | ⟨a, b, c | c⟩
      · exact .inl h
      · exact .inr ⟨a, b, .inl c⟩
      · exact absurd c.2 (by simp)
    · intro e; simp only [Na.setc] at e; rw [e] at hcomp; simp [compat] at hcomp
    · intro hh
      have := h16 hh
      exact ⟨this.1, this.2.1, this.2.2.1, by simp, by simp⟩
  · intro hr
    have hacc : s.accGone = true → False := by
      intro ha
      have hb := (h16 ha).1
      rw [hb, hr] at h14
      simp [baseOk] at h14
    refine ⟨rfl, hold, h3, h4, h5, trivial, ?_, ?_, ?_, by simp, ?_, by simp, h13, ?_, by simp, ?_, by simp, ?_⟩
    · intro e; have := h7 e; simp [hr] at this
    · intro e; have := h8 e; simp [hr] at this
    · left; simp [hr] at h9; exact h9
    · left; simp [hr] at h11; exact h11
    · show baseOk s.base .disabled s.shDone s.rep
      revert h14; rw [hr]; cases s.base <;> simp [baseOk]
    · intro e; exact (hacc e).elim
    · intro e; have := h18 e; simp [hr] at this; simpa [Na.setc] using this

theorem closeEnd_step {s : Na} {p} (h : Inv s p) (i : Nat) (ok : Bool) : Good (step s (.closeEnd i ok)) := by
  simp only [step]
  rcases which h i with ⟨ph, rfl, hc, e⟩ | ⟨hc, hd | e⟩
  · rw [e]
    cases ph <;> simp only [Ph.conn, Bool.false_eq_true, Bool.not_true, Bool.not_false, if_true, if_false]
    case mid u =>
      have hg := h.live (by simp)
      have hcomp := h.comp
      have hi : i < s.n := by
        obtain ⟨j, e1, e2, _⟩ := h.cur
        rw [hc] at e1; cases e1; exact e2
      unfold finishClose
      simp only [setc_self, setc_setc, Bool.not_true, Bool.false_eq_true, if_false]
      rw [if_neg (by simpa [Na.setc] using hg)]
      generalize hc1 : ({ st := .closed, ref := if u = true then 2 else 1, na := true, io := true, cdone := none, ch := .closed, opn := false, shut := false, pc := .idle, mid := false, user := u, gone := false } : Conn) = c1
      let c2 : Conn := if u then oldConn else { c1 with ref := 0, gone := true }
      have hc2 : ∀ t : Na, cderef (t.setc i c1) i = some (t.setc i c2) := by
        intro t
        unfold cderef
        rw [setc_self]
        subst hc1
        cases u <;> simp [c2, oldConn, setc_setc]
      have hd : Dead s.n i c2 ∨ c2 = oldConn := by
        cases u
        · left; subst hc1; simp [c2, Dead]
        · right; rfl
      -- the connection is out of the accepter
      have hout := out h hc hd
      have comm : ∀ (f : Na → Option Na), (∀ t c, t.n = s.n → f (t.setc i c) = (f t).map (·.setc i c)) →
          Good ((f { s.setc i c2 with cur := none }).bind deref) →
          Good (((f { s.setc i c1 with cur := none }).bind deref).bind fun s => cderef s i) := by
        intro f hf hgood
        have a1 : ({ s.setc i c1 with cur := none } : Na) = ({ s with cur := none } : Na).setc i c1 := rfl
        have a2 : ({ s.setc i c2 with cur := none } : Na) = ({ s with cur := none } : Na).setc i c2 := rfl
        rw [a2, hf { s with cur := none } c2 rfl] at hgood
        rw [a1, hf { s with cur := none } c1 rfl]
        cases hfs : f { s with cur := none } with
        | none => rw [hfs] at hgood; obtain ⟨_, _, e, _⟩ := hgood; cases e
        | some t =>
          rw [hfs] at hgood
          simp only [Option.map_some, Option.bind_some, deref_setc] at hgood ⊢
          cases hdt : deref t with
          | none => rw [hdt] at hgood; obtain ⟨_, _, e, _⟩ := hgood; cases e
          | some t' =>
            rw [hdt] at hgood
            simp only [Option.map_some, Option.bind_some, hc2] at hgood ⊢
            exact hgood
      change Good (((if s.st = .ready then (if s.retry = true then startRetry { s.setc i c1 with cur := none } else start { s.setc i c1 with cur := none } ok)
        else some { s.setc i c1 with cur := none }).bind deref).bind fun s => cderef s i)
      by_cases hready : s.st = .ready
      · have ht := tm_idle h (by simp [hready]) (by simp [hready]) (by simp [hready])
        have hb := base_of h (by simp [hready]) (by simp [hready]) (by simp [hready])
        have htm : s.timers = 0 := by have := h.timers; simp [hready] at this; exact this
        have hf : s.finEn = 0 := by have := h.fin; simp [hready] at this; exact this
        replace hout := hout.2 hready
        simp only [hready, if_true]
        by_cases hr : s.retry = true
        · simp only [hr, if_true]
          apply comm startRetry (fun t c _ => startRetry_setc t i c)
          simp only [startRetry, show (s.setc i c2).tm = .idle from ht, ne_eq, not_true_eq_false, if_false, Option.bind_some]
          apply deref_good (p := none) ?_ (by simp [pending, Na.setc])
          obtain ⟨h1, h2, h3, h4, h5, h6, h7, h8, h9, h10, h11, h12, h13, h14, h15, h16, h17, h18⟩ := hout
          simp only [Na.setc] at h3 h4 h5 h6 h7 h8 h9 h10 h11 h12 h13 h14 h15 h16 h17 h18
          refine ⟨rfl, h2, ?_, ?_, h5, ?_, ?_, ?_, ?_, ?_, ?_, ?_, h13, ?_, ?_, ?_, ?_, ?_⟩ <;> simp only [Na.setc] <;> iv
        · simp only [hr, if_false, Bool.false_eq_true]
          apply comm (fun t => start t ok) (fun t c ht => start_setc t (by rw [ht]; exact hi) c ok)
          exact start_deref (s := { s.setc i c2 with cur := none }) hout hb ht htm hf ok
      · replace hout := hout.1 hready
        simp only [hready, if_false]
        exact comm some (fun _ _ _ => rfl) (deref_good hout (by exact (show pending s from Inv.pending h)))
    all_goals exact Good.mk' _ h
  · simp only [hd.2.1, Bool.not_false, if_true]
    exact Good.mk' p h
  · simp only [e, oldConn, Bool.not_false, if_true]
    exact Good.mk' p h

theorem deferSwitch_good {s : Na} {p} (h : InvK 1 s p) (he : s.st = .inShutdown → s.enDone = none)
    (ht : s.tm ≠ .stopping) (hf : s.st = .inShutdown → s.finEn = 0) (ok : Bool) : Good (deferSwitch s ok) := by
  have hti : s.st ≠ .waiting → s.tm = .idle := by
    intro hw
    have := h.running
    revert this ht; cases s.tm <;> simp [hw]
  unfold deferSwitch
  split
  · rename_i hst
    unfold finishShut
    rw [he hst]
    exact finish2_good (p := p) (by cases s; simp only at hst; subst hst; exact h) (hf hst) (hti (by simp [hst])) (he hst)
  · rename_i hst
    have ht := hti (by simp [hst])
    have htm : s.timers = 0 := by have := h.timers; simp [hst] at this; exact this
    have hfe : s.finEn = 0 := by have := h.fin; simp [hst] at this; exact this
    have hb := base_of h (by simp [hst]) (by simp [hst]) (by simp [hst])
    have hacc := acc_of h (by simp [hb])
    refine deref_good (p := p) ?_ (by simp [pending])
    obtain ⟨h1, h2, h3, h4, h5, h6, h7, h8, h9, h10, h11, h12, h13, h14, h15, h16, h17, h18⟩ := h
    constructor <;> iv
  · rename_i hst
    have ht := hti (by simp [hst])
    have hb := base_of h (by simp [hst]) (by simp [hst]) (by simp [hst])
    have htm : s.timers = 0 := by have := h.timers; simp [hst] at this; exact this
    have hf : s.finEn = 0 := by have := h.fin; simp [hst] at this; exact this
    refine start_deref (p := p) ?_ hb ht htm hf ok
    obtain ⟨h1, h2, h3, h4, h5, h6, h7, h8, h9, h10, h11, h12, h13, h14, h15, h16, h17, h18⟩ := h
    constructor <;> iv
  · rename_i hst
    have hb := base_of h (by simp [hst]) (by simp [hst]) (by simp [hst])
    have hacc := acc_of h (by simp [hb])
    split
    · simp only [hacc, if_false, Bool.false_eq_true]
      refine Good.mk' p ?_
      obtain ⟨h1, h2, h3, h4, h5, h6, h7, h8, h9, h10, h11, h12, h13, h14, h15, h16, h17, h18⟩ := h
      constructor <;> iv
    · exact deref_good h (by simp [pending, hst])
  · rename_i a b c d
    refine deref_good h ?_
    intro hh
    rcases hh with e | e | e
    · exact (a e).elim
    · exact (b e).elim
    · exact (c e).elim

theorem deferred_step {s : Na} {p} (h : Inv s p) (ok : Bool) : Good (step s (.deferred ok)) := by
  simp only [step]
  split
  · rename_i hd
    have hg := h.live (by simp [hd])
    unfold doDeferred
    rw [if_neg (by simp [hg])]
    dsimp only
    have hns : s.tm ≠ .stopping := fun e => by have := h.stopping e; simp [hd] at this
    split
    · rename_i id hen
      have hacc : s.accGone = false := by
        by_cases ha : s.accGone = true
        · have := (h.acc ha).2.2.1; simp [hen] at this
        · simpa using ha
      simp only [hacc, if_false, Bool.false_eq_true]
      refine Good.mk' p ?_
      obtain ⟨h1, h2, h3, h4, h5, h6, h7, h8, h9, h10, h11, h12, h13, h14, h15, h16, h17, h18⟩ := h
      simp only [Na.say]
      constructor <;> iv
    · rename_i hen
      refine deferSwitch_good (s := { s with defer := false }) (p := p) ?_ (fun _ => hen) hns ?_ ok
      · obtain ⟨h1, h2, h3, h4, h5, h6, h7, h8, h9, h10, h11, h12, h13, h14, h15, h16, h17, h18⟩ := h
        constructor <;> iv
      · intro hst
        have hst : s.st = .inShutdown := hst
        have := h.fin
        simp [hst, hd] at this
        exact this
  · exact Good.mk' p h

theorem deferredSw_step {s : Na} {p} (h : Inv s p) (ok : Bool) : Good (step s (.deferredSw ok)) := by
  simp only [step]
  split
  · exact Good.mk' p h
  rename_i hd
  have hg := h.live (by omega)
  rw [if_neg (by simp [hg])]
  have hns : s.tm ≠ .stopping := fun e => by have := h.stopping e; omega
  refine deferSwitch_good (s := { s with deferSw := s.deferSw - 1 }) (p := p) ?_ ?_ hns ?_ ok
  · obtain ⟨h1, h2, h3, h4, h5, h6, h7, h8, h9, h10, h11, h12, h13, h14, h15, h16, h17, h18⟩ := h
    constructor <;> iv
  · intro hst
    have hst : s.st = .inShutdown := hst
    have hb : s.base = .inShut := by have := h.base; revert this; cases s.base <;> simp [baseOk, hst]
    exact h.ensh hb (by omega)
  · intro hst
    have hst : s.st = .inShutdown := hst
    have := h.fin
    simp [hst, hd] at this
    exact this

theorem finEn_step {s : Na} {p} (h : Inv s p) : Good (step s .finEn) := by
  simp only [step]
  split
  · exact Good.mk' p h
  rename_i hd
  have hg := h.live (by omega)
  simp only [hg, Bool.false_eq_true, if_false]
  have hf := h.fin
  simp only [hd, false_or] at hf
  have ht : s.tm = .idle := by
    rcases hf.2.2 with a | a
    · exact a.2.2.2
    · exact tm_idle h (by simp [a.1]) (by simp [a.1]) (by simp [a.1])
  refine finish2_good (p := p) ?_ (by show s.finEn - 1 = 0; omega) ht hf.2.1
  have hs : Settled p := by
    rcases hf.2.2 with a | a
    · have := h.comp; rw [a.1] at this; exact this
    · rw [a.2]; trivial
  have hb : s.base = .inShut := by
    have := h.base
    rcases hf.2.2 with a | a <;> (revert this; cases s.base <;> simp [baseOk, a.1])
  have hsd : s.shDone = true ∧ s.rep = false := by
    have := h.base
    rw [hb] at this
    rcases hf.2.2 with a | a <;> simpa [baseOk, a.1] using this
  have htm : s.timers = 0 := by
    have := h.timers
    rcases hf.2.2 with a | a <;> simpa [a.1] using this
  have hns : s.drops = s.drops := rfl
  obtain ⟨h1, h2, h3, h4, h5, h6, h7, h8, h9, h10, h11, h12, h13, h14, h15, h16, h17, h18⟩ := h
  refine ⟨h1, h2, ?_, ?_, h5, hs, ?_, ?_, ?_, ?_, ?_, ?_, ?_, ?_, ?_, ?_, ?_, ?_⟩ <;> dsimp only
  · simpa [hg] using h3
  · omega
  · simp [ht]
  · simp [ht]
  · simp [htm]
  · simp
  · left; omega
  · simp
  · exact h13
  · simp [baseOk, hb, hsd]
  · intro _; simp
  · intro ha; have := (h16 ha).1; simp [hb] at this
  · simp
  · intro e; exact absurd hf.2.1 e

theorem timeout_step {s : Na} {p} (h : Inv s p) (ok : Bool) : Good (step s (.timeout ok)) := by
  simp only [step]
  split
  · exact Good.mk' p h
  rename_i hd
  have hg := h.live (by omega)
  have htm := h.timers
  simp only [hd, false_or] at htm
  obtain ⟨e1, e2, e3⟩ := htm
  have e : timeout { s with timers := s.timers - 1 } ok = (start { s with timers := s.timers - 1 } ok).bind deref := by
    unfold timeout
    rw [if_neg (by simp [hg])]
    split
    all_goals first | rfl | (exfalso; simp_all)
  rw [e]
  have hb := base_of h (by simp [e2]) (by simp [e2]) (by simp [e2])
  refine start_deref (s := { s with timers := s.timers - 1 }) (p := p) ?_ hb e3 (by show s.timers - 1 = 0; omega) ?_ ok
  · obtain ⟨h1, h2, h3, h4, h5, h6, h7, h8, h9, h10, h11, h12, h13, h14, h15, h16, h17, h18⟩ := h
    constructor <;> iv
  · have := h.fin; simp [e2] at this; exact this

theorem timerDone_step {s : Na} {p} (h : Inv s p) (ok : Bool) : Good (step s (.timerDone ok)) := by
  simp only [step]
  split
  · rename_i hd
    have hg := h.live (by simp [hd])
    obtain ⟨hst, hdf, hsw, hfe, htm⟩ := h.stopping hd
    unfold timerDone
    simp only [hg, Bool.false_eq_true, if_false]
    rcases hst with hst | hst
    · have hb := base_of h (by simp [hst]) (by simp [hst]) (by simp [hst])
      have hacc := acc_of h (by simp [hb])
      simp only [hst]
      unfold callEnabled
      dsimp only
      split
      · simp only [hacc, Bool.false_eq_true, if_false]
        refine Good.mk' p ?_
        obtain ⟨h1, h2, h3, h4, h5, h6, h7, h8, h9, h10, h11, h12, h13, h14, h15, h16, h17, h18⟩ := h
        simp only [Na.say]
        constructor <;> iv
      · refine deref_good (p := p) ?_ (by simp [pending])
        obtain ⟨h1, h2, h3, h4, h5, h6, h7, h8, h9, h10, h11, h12, h13, h14, h15, h16, h17, h18⟩ := h
        constructor <;> iv
    · have hb : s.base = .inShut := by have := h.base; revert this; cases s.base <;> simp [baseOk, hst]
      have hacc := acc_of h (by simp [hb])
      simp only [hst]
      unfold finishShut
      dsimp only
      split
      · simp only [hacc, Bool.false_eq_true, if_false]
        refine Good.mk' p ?_
        obtain ⟨h1, h2, h3, h4, h5, h6, h7, h8, h9, h10, h11, h12, h13, h14, h15, h16, h17, h18⟩ := h
        simp only [Na.say]
        constructor <;> iv
      · rename_i hen
        refine finish2_good (p := p) ?_ hfe rfl hen
        obtain ⟨h1, h2, h3, h4, h5, h6, h7, h8, h9, h10, h11, h12, h13, h14, h15, h16, h17, h18⟩ := h
        constructor <;> iv
  · exact Good.mk' p h

/-- The states in `shutClose`. -/
def shutCloseSt (s : Na) : Option Na :=
  match s.st with
  | .openDisable => callEnabled { s with st := .disabled }
  | .openShutdown => finishShut s
  | _ => none

theorem shutClose_eq (s : Na) : shutClose s = if s.gone then none else shutCloseSt { s with cur := none } := rfl

theorem shutClose_step {s : Na} {p} (h : Inv s p) : Good (step s .shutClose) := by
  simp only [step]
  split
  · exact Good.mk' p h
  rename_i hd
  have hp : p = some .freed := by
    have := h.sc
    cases p with
    | none => exact absurd this hd
    | some ph => cases ph <;> first | rfl | exact absurd this hd
  subst hp
  have hg := h.live (by simp)
  have hst : s.st = .openDisable ∨ s.st = .openShutdown := by
    have := h.comp; revert this; cases s.st <;> simp [compat, Settled]
  have ht : s.tm = .idle := by rcases hst with e | e <;> exact tm_idle h (by simp [e]) (by simp [e]) (by simp [e])
  have htm : s.timers = 0 := by have := h.timers; rcases hst with e | e <;> simpa [e] using this
  have hfe : s.finEn = 0 := by have := h.fin; rcases hst with e | e <;> simpa [e] using this
  obtain ⟨i, hc, hi, e⟩ := h.cur
  have hsc : s.sc = 1 := h.sc
  rw [shutClose_eq, if_neg (by simp [hg])]
  have hold : ∀ j, (none : Option Nat) ≠ some j → Dead s.n j (s.conns j) ∨ s.conns j = oldConn := by
    intro j _
    by_cases hj : j = i
    · subst hj; rw [e]; simp [Dead, Ph.conn]
    · exact h.old j (by rw [hc]; simpa using fun e => hj e.symm)
  rcases hst with hst | hst
  · have hb := base_of h (by simp [hst]) (by simp [hst]) (by simp [hst])
    have hacc := acc_of h (by simp [hb])
    have hm : InvK 1 { s with sc := s.sc - 1, cur := none, st := .disabled, enDone := none } none := by
      obtain ⟨h1, h2, h3, h4, h5, h6, h7, h8, h9, h10, h11, h12, h13, h14, h15, h16, h17, h18⟩ := h
      refine ⟨rfl, hold, h3, h4, ?_, trivial, ?_, ?_, ?_, ?_, ?_, ?_, ?_, ?_, ?_, ?_, ?_, ?_⟩ <;> dsimp only <;> clear h1 h2 hold <;> iv
    have e0 : shutCloseSt { s with sc := s.sc - 1, cur := none } = callEnabled { s with sc := s.sc - 1, cur := none, st := .disabled } := by
      simp [shutCloseSt, hst]
    rw [e0]
    unfold callEnabled
    dsimp only
    split
    · rw [if_neg (by simp [hacc])]
      refine Good.mk' none ?_
      obtain ⟨h1, h2, h3, h4, h5, h6, h7, h8, h9, h10, h11, h12, h13, h14, h15, h16, h17, h18⟩ := hm
      refine ⟨rfl, h2, h3, ?_, h5, h6, h7, h8, h9, h10, h11, h12, h13, h14, by simp [Na.say], by simp [Na.say, hacc], h17, by simp [Na.say]⟩
      dsimp only [Na.say] at h4 ⊢; simp only [hacc, ht] at h4 ⊢; cases hdf : s.defer <;> simp [hdf, held] at h4 ⊢ <;> omega
    · rename_i hen
      have : ({ s with sc := s.sc - 1, cur := none, st := .disabled } : Na) = { s with sc := s.sc - 1, cur := none, st := .disabled, enDone := none } := by
        cases s; simp only at hen; subst hen; rfl
      rw [this]
      exact deref_good hm (by simp [pending])
  · have hb : s.base = .inShut := by have := h.base; revert this; cases s.base <;> simp [baseOk, hst]
    have hacc := acc_of h (by simp [hb])
    have hm : InvK 1 { s with sc := s.sc - 1, cur := none, st := .inShutdown, enDone := none } none := by
      obtain ⟨h1, h2, h3, h4, h5, h6, h7, h8, h9, h10, h11, h12, h13, h14, h15, h16, h17, h18⟩ := h
      refine ⟨rfl, hold, h3, h4, ?_, trivial, ?_, ?_, ?_, ?_, ?_, ?_, ?_, ?_, ?_, ?_, ?_, ?_⟩ <;> dsimp only <;> clear h1 h2 hold <;> iv
    have e0 : shutCloseSt { s with sc := s.sc - 1, cur := none } = finishShut { s with sc := s.sc - 1, cur := none } := by
      simp [shutCloseSt, hst]
    rw [e0]
    unfold finishShut
    dsimp only
    split
    · rw [if_neg (by simp [hacc])]
      refine Good.mk' none ?_
      obtain ⟨h1, h2, h3, h4, h5, h6, h7, h8, h9, h10, h11, h12, h13, h14, h15, h16, h17, h18⟩ := hm
      have h14' := h.base
      refine ⟨rfl, h2, h3, ?_, h5, by simp [compat, Na.say, hst], ?_, ?_, ?_, ?_, ?_, ?_, ?_, h14', ?_, ?_, ?_, ?_⟩ <;> dsimp only [Na.say]
      · dsimp only at h4; simp only [hacc, ht] at h4 ⊢; cases hdf : s.defer <;> simp [hdf, held] at h4 ⊢ <;> omega
      · simp [ht]
      · simp [ht]
      · left; exact htm
      · simp [hst]
      · right; refine ⟨by omega, rfl, .inr ⟨hst, rfl⟩⟩
      · intro _ _; omega
      · simp
      · simp [hst]
      · simp [hacc]
      · simp [hst]
      · simp
    · rename_i hen
      refine finish2_good (s := { s with sc := s.sc - 1, cur := none }) (p := none) ?_ hfe ht hen
      have : ({ s with sc := s.sc - 1, cur := none, st := .inShutdown } : Na) = { s with sc := s.sc - 1, cur := none, st := .inShutdown, enDone := none } := by
        cases s; simp only at hen; subst hen; rfl
      exact this ▸ hm

theorem release_step {s : Na} {p} (h : Inv s p) : Good (step s .release) := by
  simp only [step]
  split
  · exact Good.mk' p h
  rename_i hn
  simp only [not_or] at hn
  obtain ⟨n1, n2, n3, n4, n5⟩ := hn
  have hacc : s.accGone = false := by simpa using n2
  have hg := h.live (by simp [hacc])
  rw [if_neg (by simp [hg])]
  have hb : s.base = .closed := by simpa using n3
  have hst : s.st = .shutdown := by have := h.base; rw [hb] at this; exact this.1
  have hp : p ≠ some .cb3 ∧ p ≠ some .cb4 := by
    have key : ∀ ph : Ph, p = some ph → holdsBase ph.conn = false := by
      intro ph e
      subst e
      obtain ⟨i, _, hi, e⟩ := h.cur
      by_cases hh : holdsBase ph.conn = true
      · exact absurd (List.any_eq_true.2 ⟨i, List.mem_range.2 hi, by rw [e]; exact hh⟩) n5
      · simpa using hh
    constructor <;> (intro e; have := key _ e; simp [holdsBase, Ph.conn] at this)
  refine deref_good (s := { s with accGone := true }) (p := p) ?_ (by simp [pending, hst])
  obtain ⟨h1, h2, h3, h4, h5, h6, h7, h8, h9, h10, h11, h12, h13, h14, h15, h16, h17, h18⟩ := h
  refine ⟨h1, h2, h3, ?_, h5, h6, h7, h8, h9, h10, h11, h12, h13, h14, ?_, ?_, h17, h18⟩
  · dsimp only; simp only [hacc] at h4; simp only [if_true]; simp only [Bool.false_eq_true, if_false] at h4; omega
  · dsimp only; simp [hst]
  · intro _
    exact ⟨hb, by simpa using n1, by simpa using n4, hp.1, hp.2⟩

theorem control_step {s : Na} {p} (h : Inv s p) (hca : careful s .control) : Good (step s .control) := by
  have hca : s.sc = 0 := hca
  simp only [step]
  split
  · exact Good.mk' p h
  rename_i hf
  have hacc : s.accGone = false := by
    by_cases ha : s.accGone = true
    · exact absurd (h.acc ha).2.1 hf
    · simpa using ha
  have hg := h.live (by simp [hacc])
  unfold control
  rw [if_neg (by simp [hg])]
  split
  · rename_i i hi
    rcases which h i with ⟨ph, rfl, hc, e⟩ | ⟨hc, _⟩
    · rw [if_neg]
      · exact Good.mk' _ h
      · rw [e]
        have := h.sc
        cases ph <;> simp [Ph.conn, given, hca] at this ⊢
    · exact absurd hi hc
  · exact Good.mk' p h

/-! ### What the user does with the accepter -/

theorem acc_false {k s p} (h : InvK k s p) (hf : ¬ s.freed = true) : s.accGone = false := by
  by_cases ha : s.accGone = true
  · exact absurd (h.acc ha).2.1 hf
  · simpa using ha

theorem startup_step {s : Na} {p} (h : Inv s p) (ok : Bool) : Good (step s (.startup ok)) := by
  simp only [step]
  split
  · exact Good.mk' p h
  rename_i hf
  have hacc := acc_false h hf
  have hg := h.live (by simp [hacc])
  unfold startup
  rw [if_neg (by simp [hg])]
  split
  · exact Good.mk' p h
  rename_i hb
  have hb : s.base = .closed := by simpa using hb
  split
  · exact Good.mk' p h
  rename_i hst
  have hst : s.st = .shutdown := by simpa using hst
  have ht := tm_idle h (by simp [hst]) (by simp [hst]) (by simp [hst])
  have htm : s.timers = 0 := by have := h.timers; simpa [hst] using this
  have hfe : s.finEn = 0 := by have := h.fin; simpa [hst] using this
  have hs : s.shDone = false ∧ s.rep = false := by have := h.base; rw [hb] at this; exact this.2
  have hm : InvK 0 { s with conErr := false, st := .disabled, base := .opened } p := by
    obtain ⟨h1, h2, h3, h4, h5, h6, h7, h8, h9, h10, h11, h12, h13, h14, h15, h16, h17, h18⟩ := h
    constructor <;> iv
  split
  · exact Good.mk' p hm
  · obtain ⟨s', p', e, hi, e1, e2, e3, e4, e5⟩ := start_good (s := { s with conErr := false }) (p := p) hm ht htm hfe ok
    rw [e]
    dsimp only [Option.map]
    split
    · rename_i hd
      have hp : p' = none := by rcases e2 with a | a | a | a <;> simp_all
      subst hp
      refine Good.mk' none ?_
      have hb' : s'.base = .closed := by rw [e1]; exact hb
      have hfr : ¬ s'.freed = true := by rw [e4]; exact hf
      obtain ⟨h1, h2, h3, h4, h5, h6, h7, h8, h9, h10, h11, h12, h13, h14, h15, h16, h17, h18⟩ := hi
      dsimp only at h1 h2 h3 h4 h5 h6 h7 h8 h9 h10 h11 h12 h13 h14 h15 h16 h17 h18
      refine ⟨h1, h2, h3, h4, h5, trivial, ?_, ?_, ?_, by simp, .inl e5, by simp, ?_, ?_, by simp, ?_, by simp, ?_⟩ <;> dsimp only
      · intro e; have := h7 e; simp [hd] at this
      · intro e; have := h8 e; simp [hd] at this
      · left; simpa [hd] using h9
      · simp [hb']
      · rw [hb']; rw [hd] at h14; simpa [baseOk] using h14
      · intro ha; exact absurd (h16 ha).2.1 hfr
      · intro e; have := h18 e; simpa [hd] using this
    · exact Good.mk' p' hi

theorem shutdown_good {s : Na} {p} (h : Inv s p) (hb : s.base = .opened) (hca : careful s .shutdown) :
    (shutdown s = some (s, false) ∧ s.st = .shutdown) ∨
    (∃ s' p', shutdown s = some (s', true) ∧ Inv { s' with base := .inShut } p') := by
  have hacc := acc_of h (by simp [hb])
  have hg := h.live (by simp [hacc])
  obtain ⟨c1, c2, c3⟩ := hca
  have hsd : s.st ≠ .inShutdown ∧ s.st ≠ .openShutdown ∧ s.shDone = false ∧ s.rep = false := by have := h.base; rw [hb] at this; exact this
  have hdf : s.st = .ready ∨ s.st = .inDisableRestart ∨ s.st = .disabled ∨ s.st = .dead →
      (∃ p', Inv { (deferOp { s with st := .inShutdown }) with shDone := true, base := .inShut } p') := by
    intro hx
    have ht : s.tm = .idle := by rcases hx with e | e | e | e <;> exact tm_idle h (by simp [e]) (by simp [e]) (by simp [e])
    have htm : s.timers = 0 := by have := h.timers; rcases hx with e | e | e | e <;> simpa [e] using this
    have hfe : s.finEn = 0 := by have := h.fin; rcases hx with e | e | e | e <;> simpa [e] using this
    have hp : Settled p := by have := h.comp; rcases hx with e | e | e | e <;> (rw [e] at this; revert this; simp [compat]); (intro e _; exact e); (intro e; subst e; trivial)
    refine ⟨p, ?_⟩
    unfold deferOp
    obtain ⟨h1, h2, h3, h4, h5, h6, h7, h8, h9, h10, h11, h12, h13, h14, h15, h16, h17, h18⟩ := h
    split
    · rename_i hd
      refine ⟨h1, h2, h3, h4, h5, hp, ?_, ?_, ?_, ?_, ?_, ?_, ?_, ?_, ?_, ?_, ?_, ?_⟩ <;> dsimp only <;> clear h1 h2 <;> iv
    · rename_i hd
      refine ⟨h1, h2, ?_, ?_, h5, hp, ?_, ?_, ?_, ?_, ?_, ?_, ?_, ?_, ?_, ?_, ?_, ?_⟩ <;> dsimp only at hd ⊢ <;> clear h1 h2 <;> iv
  unfold shutdown
  dsimp only
  rw [if_neg (by simp [hg])]
  cases hst : s.st
  case shutdown => exact .inl ⟨rfl, rfl⟩
  case inShutdown => exact absurd hst hsd.1
  case openShutdown => exact absurd hst hsd.2.1
  case ready => obtain ⟨p', hp⟩ := hdf (by simp [hst]); exact .inr ⟨_, p', rfl, hp⟩
  case inDisableRestart => obtain ⟨p', hp⟩ := hdf (by simp [hst]); exact .inr ⟨_, p', rfl, hp⟩
  case disabled => obtain ⟨p', hp⟩ := hdf (by simp [hst]); exact .inr ⟨_, p', rfl, hp⟩
  case dead => obtain ⟨p', hp⟩ := hdf (by simp [hst]); exact .inr ⟨_, p', rfl, hp⟩
  case openDisable =>
    refine .inr ⟨_, p, rfl, ?_⟩
    have ht := tm_idle h (by simp [hst]) (by simp [hst]) (by simp [hst])
    obtain ⟨h1, h2, h3, h4, h5, h6, h7, h8, h9, h10, h11, h12, h13, h14, h15, h16, h17, h18⟩ := h
    have htm : s.timers = 0 := by simpa [hst] using h9
    have hfe : s.finEn = 0 := by simpa [hst] using h11
    rw [hst] at h6
    have hp : compat .openShutdown p ∧ p ≠ none := by
      cases p with
      | none => exact h6.elim
      | some ph => cases ph <;> simp [compat] at h6 ⊢
    refine ⟨h1, h2, h3, h4, h5, hp.1, ?_, ?_, .inl htm, by simp, .inl hfe, fun _ e => absurd e hp.2, fun _ => c3, ?_, by simp, ?_, by simp, by simp⟩
    · simp [ht]
    · simp [ht]
    · simp [baseOk, hsd]
    · simp [hacc]
  case inDisable =>
    refine .inr ⟨_, p, rfl, ?_⟩
    obtain ⟨h1, h2, h3, h4, h5, h6, h7, h8, h9, h10, h11, h12, h13, h14, h15, h16, h17, h18⟩ := h
    have htm : s.timers = 0 := by simpa [hst] using h9
    have hfe : s.finEn = 0 := by simpa [hst] using h11
    rw [hst] at h6
    refine ⟨h1, h2, h3, h4, h5, h6, ?_, fun e => ⟨.inr rfl, (h8 e).2⟩, .inl htm, by simp, .inl hfe, by simp, fun _ => c3, ?_, fun _ => ?_, ?_, by simp, ?_⟩
    · intro e; have := (h7 e).1; simp [hst] at this
    · simp [baseOk, hsd]
    · exact h15 (by simp [hst])
    · simp [hacc]
    · intro e; have := h18 e; simp [hst] at this; rcases this with a | a
      · exact .inl a
      · exact .inr (.inl a)
  case waiting =>
    obtain ⟨o1, o2, o3⟩ := c1 hst
    rw [o1]
    refine .inr ⟨_, p, rfl, ?_⟩
    obtain ⟨h1, h2, h3, h4, h5, h6, h7, h8, h9, h10, h11, h12, h13, h14, h15, h16, h17, h18⟩ := h
    have htm := (h7 o1).2
    have hfe : s.finEn = 0 := by simpa [hst] using h11
    have hp : p = none := by rw [hst] at h6; exact h6
    subst hp
    refine ⟨h1, h2, h3, ?_, h5, trivial, by simp, fun _ => ⟨.inr rfl, o2, o3, hfe, htm⟩, .inl htm, by simp, .inl hfe, by simp, ?_, ?_, by simp, ?_, by simp, by simp⟩
    · dsimp only; rw [h4, o1]; rfl
    · intro _; exact c3
    · simp [baseOk, hsd]
    · simp [hacc]
  case opening =>
    have hcomp := h.comp
    have hcur := h.cur
    rw [hst] at hcomp
    cases p with
    | none => exact hcomp.elim
    | some ph =>
      obtain ⟨i, hc, hi, e⟩ := hcur
      have hph : ph = .opening := by
        have := c2 hst i hc
        rw [e] at this
        cases ph <;> simp [Ph.conn, compat] at this hcomp ⊢
      subst hph
      refine .inr ⟨{ (s.setc i Ph.shut0.conn) with st := .openShutdown, shDone := true }, some .shut0, ?_, ?_⟩
      · simp [closeCur, hc, e, Ph.conn, closeOk]
      · have ht := tm_idle h (by simp [hst]) (by simp [hst]) (by simp [hst])
        obtain ⟨h1, h2, h3, h4, h5, h6, h7, h8, h9, h10, h11, h12, h13, h14, h15, h16, h17, h18⟩ := h
        have htm : s.timers = 0 := by simpa [hst] using h9
        have hfe : s.finEn = 0 := by simpa [hst] using h11
        refine ⟨cur_setc .shut0 hc hi, old_setc hc h2, h3, h4, h5, trivial, ?_, ?_, .inl htm, by simp, .inl hfe, by simp, ?_, ?_, by simp, ?_, by simp, by simp⟩
        · intro e; have : s.tm = .running := e; simp [ht] at this
        · intro e; have : s.tm = .stopping := e; simp [ht] at this
        · intro _; exact c3
        · exact .inl ⟨.inr rfl, rfl, hsd.2.2.2⟩
        · intro e; have : s.accGone = true := e; simp [hacc] at this

theorem say_inv {k s p} (h : InvK k s p) (e : Ev) : InvK k (s.say e) p := by
  obtain ⟨h1, h2, h3, h4, h5, h6, h7, h8, h9, h10, h11, h12, h13, h14, h15, h16, h17, h18⟩ := h
  exact ⟨h1, h2, h3, h4, h5, h6, h7, h8, h9, h10, h11, h12, h13, h14, h15, h16, h17, h18⟩

theorem shutdown_step {s : Na} {p} (h : Inv s p) (hca : careful s .shutdown) : Good (step s .shutdown) := by
  simp only [step]
  split
  · exact Good.mk' p h
  rename_i hf
  have hb : s.base = .opened := by
    simp only [not_or] at hf
    simpa using hf.2
  rcases shutdown_good h hb hca with ⟨e, _⟩ | ⟨s', p', e, hi⟩
  · rw [e]; exact Good.mk' p h
  · rw [e]
    exact Good.mk' p' (say_inv hi .shutReq)

theorem freed_inv {s : Na} {p} (h : Inv s p) : Inv { s with freed := true } p := by
  obtain ⟨h1, h2, h3, h4, h5, h6, h7, h8, h9, h10, h11, h12, h13, h14, h15, h16, h17, h18⟩ := h
  exact ⟨h1, h2, h3, h4, h5, h6, h7, h8, h9, h10, h11, h12, h13, h14, h15, fun ha => ⟨(h16 ha).1, rfl, (h16 ha).2.2⟩, h17, h18⟩

theorem free_step {s : Na} {p} (h : Inv s p) (hca : careful s .free) : Good (step s .free) := by
  simp only [step]
  split
  · exact Good.mk' p h
  unfold accFree
  have h' := freed_inv h
  dsimp only
  split
  · rename_i hb
    rcases shutdown_good h' hb hca with ⟨e, hst⟩ | ⟨s', p', e, hi⟩
    · rw [e]
      refine Good.mk' p ?_
      have hacc := acc_of h (by simp [hb])
      have hst : s.st = .shutdown := hst
      obtain ⟨h1, h2, h3, h4, h5, h6, h7, h8, h9, h10, h11, h12, h13, h14, h15, h16, h17, h18⟩ := h'
      refine ⟨h1, h2, h3, h4, h5, h6, h7, h8, h9, h10, h11, h12, by simp, ?_, h15, ?_, h17, h18⟩
      · have h14 : baseOk s.base s.st s.shDone s.rep := h14
        show baseOk .closed s.st s.shDone s.rep
        rw [hb, hst] at h14
        rw [hst]
        simpa [baseOk] using h14
      · intro e; have : s.accGone = true := e; simp [hacc] at this
    · rw [e]
      exact Good.mk' p' hi
  · exact Good.mk' p h'

/-- A request to enable or disable that is done later by `conaccna_do_deferred`. -/
theorem enEnd_good {s : Na} {p} (h : Inv s p) (hb : s.base = .opened) (hs : s.tm ≠ .stopping) (x : NSt)
    (hx : x = s.st ∨ ((s.st = .ready ∨ s.st = .inDisable ∨ s.st = .inDisableRestart) ∧ (x = .inDisable ∨ x = .inDisableRestart)))
    (en : Bool) (done : Option Nat) : Good (enEnd { s with st := x } en done true) := by
  have hacc := acc_of h (by simp [hb])
  have hsd : s.st ≠ .inShutdown ∧ s.st ≠ .openShutdown ∧ s.shDone = false ∧ s.rep = false := by have := h.base; rw [hb] at this; exact this
  have hfe : s.finEn = 0 := by have := h.fin; simpa [hsd] using this
  have key : ∀ t : Na, (∃ l, t = { s with st := x, enabled := en, enDone := done, log := l }) → Inv (deferOp t) p := by
    rintro t ⟨l, rfl⟩
    have hcomp : compat x p := by
      have := h.comp
      rcases hx with e | ⟨a, b⟩
      · rw [e]; exact this
      · have hp : Settled p := by
          rcases a with a | a | a <;> rw [a] at this
          · exact this.1
          · exact this
          · exact this
        rcases b with b | b <;> subst b <;> exact hp
    have hxs : x ≠ .inShutdown ∧ x ≠ .openShutdown := by
      rcases hx with e | ⟨a, b | b⟩
      · subst e; exact ⟨hsd.1, hsd.2.1⟩
      · subst b; simp
      · subst b; simp
    have hxw : (x = .waiting ↔ s.st = .waiting) ∧ (x = .dead → s.st = .dead) := by
      rcases hx with e | ⟨a, b | b⟩
      · subst e; simp
      · subst b; rcases a with a | a | a <;> simp [a]
      · subst b; rcases a with a | a | a <;> simp [a]
    obtain ⟨h1, h2, h3, h4, h5, h6, h7, h8, h9, h10, h11, h12, h13, h14, h15, h16, h17, h18⟩ := h
    clear hx
    unfold deferOp
    split
    · rename_i hd
      have hd : s.defer = true := hd
      refine ⟨h1, h2, h3, h4, h5, hcomp, ?_, ?_, ?_, ?_, .inl hfe, ?_, ?_, ?_, fun _ => .inl hd, ?_, ?_, fun _ => .inl hd⟩ <;> dsimp only <;> clear h1 h2 <;> iv
    · rename_i hd
      have hd : s.defer = false := by simpa using hd
      refine ⟨h1, h2, ?_, ?_, h5, hcomp, ?_, ?_, ?_, ?_, .inl hfe, ?_, ?_, ?_, fun _ => .inl rfl, ?_, ?_, fun _ => .inl rfl⟩ <;> dsimp only <;> clear h1 h2 <;> iv
  refine Good.mk' (s := deferOp _) p (key _ ?_)
  cases done
  · exact ⟨s.log, rfl⟩
  · exact ⟨_, rfl⟩

theorem enable_step {s : Na} {p} (h : Inv s p) (en : Bool) (done : Option Nat) (ok : Bool) (hca : careful s (.enable en done ok)) :
    Good (step s (.enable en done ok)) := by
  simp only [step]
  split
  · exact Good.mk' p h
  rename_i hf
  have hb : s.base = .opened := by
    simp only [not_or] at hf
    simpa using hf.2
  have hacc := acc_of h (by simp [hb])
  have hg := h.live (by simp [hacc])
  have hsd : s.st ≠ .inShutdown ∧ s.st ≠ .openShutdown ∧ s.shDone = false ∧ s.rep = false := by have := h.base; rw [hb] at this; exact this
  unfold enable
  rw [if_neg (by simp [hg])]
  split
  · exact Good.mk' p h
  rename_i hen
  have hen : s.enDone = none := by simpa using hen
  obtain ⟨c1, c2, c3, c4⟩ := hca hen
  have hns : s.tm = .stopping → s.st = .inDisable := by
    intro e
    rcases (h.stopping e).1 with a | a
    · exact a
    · exact absurd a hsd.1
  have same : s.st ≠ .inDisable → Good (enEnd s en done true) := fun hx =>
    enEnd_good h hb (fun e => hx (hns e)) s.st (.inl rfl) en done
  cases hst : s.st
  case shutdown => exact same (by simp [hst])
  case dead => exact same (by simp [hst])
  case inShutdown => exact absurd hst hsd.1
  case openShutdown => exact absurd hst hsd.2.1
  case ready => exact enEnd_good h hb (fun e => by have := hns e; simp [hst] at this) .inDisable (.inr ⟨by simp [hst], by simp⟩) en done
  case inDisable =>
    have ht := c1 hst
    cases en
    · simp only [Bool.false_eq_true, if_false]
      exact enEnd_good h hb ht s.st (.inl rfl) false done
    · simp only [if_true]
      exact enEnd_good h hb ht .inDisableRestart (.inr ⟨by simp [hst], by simp⟩) true done
  case inDisableRestart =>
    have ht : s.tm ≠ .stopping := fun e => by have := hns e; simp [hst] at this
    cases en
    · simp only [Bool.false_eq_true, if_false]
      exact enEnd_good h hb ht .inDisable (.inr ⟨by simp [hst], by simp⟩) false done
    · simp only [if_true]
      exact enEnd_good h hb ht s.st (.inl rfl) true done
  case openDisable =>
    rw [c4 hst]
    simp only [Bool.false_eq_true, if_false]
    exact (c4 hst) ▸ same (by simp [hst])
  case disabled =>
    cases en
    · simp only [Bool.false_eq_true, if_false]
      exact same (by simp [hst])
    · simp only [if_true]
      have ht := tm_idle h (by simp [hst]) (by simp [hst]) (by simp [hst])
      have htm : s.timers = 0 := by have := h.timers; simpa [hst] using this
      have hfe : s.finEn = 0 := by have := h.fin; simpa [hst] using this
      obtain ⟨s', p', e, hi, e1, e2, e3, e4, e5⟩ := start_good (s := s) (p := p) (by cases s; simp only at hst hb; subst hst; subst hb; exact h) ht htm hfe ok
      rw [e]
      have hb' : s'.base = .opened := by rw [e1, hb]
      have hi := base_self hi hb'
      dsimp only [Option.bind]
      split
      · rename_i hd
        refine Good.mk' p' ?_
        have ht' := tm_idle hi (by simp [hd]) (by simp [hd]) (by simp [hd])
        have hacc' := acc_of hi (by simp [hb'])
        have hp : p' = none := by have := hi.comp; rw [hd] at this; exact this
        subst hp
        obtain ⟨h1, h2, h3, h4, h5, h6, h7, h8, h9, h10, h11, h12, h13, h14, h15, h16, h17, h18⟩ := hi
        have htm : s'.timers = 0 := by simpa [hd] using h9
        refine ⟨h1, h2, h3, h4, h5, trivial, ?_, ?_, .inl htm, by simp, .inl e5, by simp, ?_, ?_, by simp, ?_, by simp, ?_⟩
        · simp [ht']
        · simp [ht']
        · simp [hb']
        · rw [hb'] at h14; show baseOk s'.base _ _ _; rw [hb']; rw [hd] at h14; simpa [baseOk] using h14
        · simp [hacc']
        · intro e; have := h18 e; simpa [hd] using this
      · rename_i hd
        refine enEnd_good hi hb' ?_ s'.st (.inl rfl) true done
        intro e
        have := (hi.stopping e).1
        rcases e2 with a | a | a | a
        · simp [a] at this
        · simp [a] at this
        · simp [a] at this
        · exact hd a.1
  case waiting =>
    cases en
    · simp only [Bool.false_eq_true, if_false]
      obtain ⟨o1, o2, o3⟩ := c2 hst rfl
      rw [o1]
      refine Good.mk' p ?_
      obtain ⟨h1, h2, h3, h4, h5, h6, h7, h8, h9, h10, h11, h12, h13, h14, h15, h16, h17, h18⟩ := h
      have htm := (h7 o1).2
      have hfe : s.finEn = 0 := by simpa [hst] using h11
      have hp : p = none := by rw [hst] at h6; exact h6
      subst hp
      have : Inv { s with st := .inDisable, tm := .stopping, enabled := false, enDone := done } none := by
        refine ⟨h1, h2, h3, ?_, h5, trivial, by simp, fun _ => ⟨.inl rfl, o2, o3, hfe, htm⟩, .inl htm, by simp, .inl hfe, by simp, ?_, ?_, by simp, ?_, by simp, by simp⟩
        · dsimp only; rw [h4, o1]; rfl
        · simp [hb]
        · simp [baseOk, hsd, hb]
        · simp [hacc]
      cases done with
      | none => exact this
      | some id => exact say_inv this _
    · simp only [if_true]
      exact same (by simp [hst])
  case opening =>
    cases en
    · simp only [Bool.false_eq_true, if_false]
      have hcomp := h.comp
      have hcur := h.cur
      rw [hst] at hcomp
      cases p with
      | none => exact hcomp.elim
      | some ph =>
        obtain ⟨i, hc, hi, e⟩ := hcur
        have hph : ph = .opening := by
          have := c3 hst rfl i hc
          rw [e] at this
          cases ph <;> simp [Ph.conn, compat] at this hcomp ⊢
        subst hph
        have hcc : closeCur s = some (s.setc i Ph.shut0.conn, true) := by simp [closeCur, hc, e, Ph.conn, closeOk]
        rw [hcc]
        refine Good.mk' (some .shut0) ?_
        have ht := tm_idle h (by simp [hst]) (by simp [hst]) (by simp [hst])
        obtain ⟨h1, h2, h3, h4, h5, h6, h7, h8, h9, h10, h11, h12, h13, h14, h15, h16, h17, h18⟩ := h
        have htm : s.timers = 0 := by simpa [hst] using h9
        have hfe : s.finEn = 0 := by simpa [hst] using h11
        have : Inv { (s.setc i Ph.shut0.conn) with st := .openDisable, enabled := false, enDone := done } (some .shut0) := by
          refine ⟨cur_setc .shut0 hc hi, old_setc hc h2, h3, h4, h5, trivial, ?_, ?_, .inl htm, by simp, .inl hfe, by simp, ?_, ?_, by simp, ?_, by simp, by simp⟩
          · intro e; have : s.tm = .running := e; simp [ht] at this
          · intro e; have : s.tm = .stopping := e; simp [ht] at this
          · intro e; have : s.base = .inShut := e; simp [hb] at this
          · show baseOk s.base .openDisable s.shDone s.rep
            rw [hb]; exact ⟨by simp, by simp, hsd.2.2⟩
          · intro e; have : s.accGone = true := e; simp [hacc] at this
        cases done with
        | none => exact this
        | some id => exact say_inv this _
    · simp only [if_true]
      exact same (by simp [hst])

theorem disableIo_step {s : Na} {p} (h : Inv s p) (i : Nat) (ok : Bool) (hca : careful s (.disableIo i ok)) :
    Good (step s (.disableIo i ok)) := by
  have hca : (s.conns i).user = false := hca
  simp only [step, hca, Bool.not_false, if_true]
  exact Good.mk' p h

/-- No step of a careful run goes wrong. -/
theorem step_good {s : Na} {p} (h : Inv s p) (o : Op) (hca : careful s o) : Good (step s o) := by
  cases o with
  | startup ok => exact startup_step h ok
  | shutdown => exact shutdown_step h hca
  | enable en d ok => exact enable_step h en d ok hca
  | free => exact free_step h hca
  | control => exact control_step h hca
  | closeIo i id ok => exact closeIo_step h i id ok hca
  | freeIo i ok => exact freeIo_step h i ok
  | disableIo i ok => exact disableIo_step h i ok hca
  | opened i err => exact opened_step h i err
  | openDone i ok => exact openDone_step h i ok
  | closed i => exact closed_step h i
  | closeEnd i ok => exact closeEnd_step h i ok
  | deferred ok => exact deferred_step h ok
  | deferredSw ok => exact deferredSw_step h ok
  | finEn => exact finEn_step h
  | drop => exact drop_step h
  | timer => exact timer_step h
  | timeout ok => exact timeout_step h ok
  | timerDone ok => exact timerDone_step h ok
  | shutClose => exact shutClose_step h
  | report => exact report_step h
  | release => exact release_step h

end Gensio.Conacc
