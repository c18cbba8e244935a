import Verif.Lemmas.Dgram

/-! Datagram gensios that are used with care: what the threads in callbacks say about the connections. -/
set_option linter.unusedSimpArgs false
namespace Gensio.Dgram

/-- The connection of a thread. -/
def T.ix : T → Option Nat
  | .new i | .newEn i | .read i _ | .openCb i | .closeCb i _ | .shutRh i | .wr i => some i
  | .shutDop | .en => none

/-- Threads for which `in_read` of a connection is set. -/
def T.rdr (i : Nat) : T → Bool
  | .new j | .read j _ | .shutRh j => j == i
  | _ => false

/-- Threads in the write callback of a connection. -/
def T.wtr (i : Nat) : T → Bool
  | .wr j => j == i
  | _ => false

/-- Threads in the open callback of a connection. -/
def T.opr (i : Nat) : T → Bool
  | .openCb j => j == i
  | _ => false

/-- Threads in the close callback of a connection. -/
def T.clr (i : Nat) : T → Bool
  | .closeCb j _ => j == i
  | _ => false

theorem T.rdr_of {t : T} {i : Nat} (h : t.ix ≠ some i) : t.rdr i = false := by
  cases t <;> simp_all [T.ix, T.rdr]
theorem T.wtr_of {t : T} {i : Nat} (h : t.ix ≠ some i) : t.wtr i = false := by
  cases t <;> simp_all [T.ix, T.wtr]
theorem T.opr_of {t : T} {i : Nat} (h : t.ix ≠ some i) : t.opr i = false := by
  cases t <;> simp_all [T.ix, T.opr]
theorem T.clr_of {t : T} {i : Nat} (h : t.ix ≠ some i) : t.clr i = false := by
  cases t <;> simp_all [T.ix, T.clr]

/-- What holds of a connection. -/
structure Q (ths : List T) (i : Nat) (c : C) : Prop where
  rdn : ths.countP (T.rdr i) = b2n (c.inRead && !c.defRead)
  wrn : ths.countP (T.wtr i) = b2n c.inWrite
  opn : ths.countP (T.opr i) = b2n c.inOpenCb
  cln : ths.countP (T.clr i) = b2n c.inCloseCb
  dr : c.defRead = true → c.inRead = true
  busy : c.inRead = true ∨ c.inWrite = true ∨ c.inOpenCb = true → c.st ≠ .closed
  io : c.st = .inOpen → c.inOpenCb = false
  ic : c.inCloseCb = true → c.st = .closed
  wr : c.up = false → c.wr = false
  fr : c.freed = true → c.up = false
  gn : c.gone = true → c.freed = true ∧ c.st = .closed ∧ c.inCloseCb = false
  dru : c.defRead = true → c.up = true

/-- A close is under way. -/
def CL (c : C) : Prop := c.st = .inClose → c.dop = true ∨ c.inRead = true ∨ c.inWrite = true ∨ c.inOpenCb = true

/-- The invariant; `e` is a connection of which nothing is said. -/
structure J (nc : Bool) (pr : Prop) (e : Option Nat) (s : U) : Prop where
  q : ∀ (i : Nat) (c : C), s.cs[i]? = some c → e ≠ some i → Q s.ths i c ∧ (pr → CL c)
  d : ∀ (i : Nat) (c : C), s.cs[i]? = some c → e ≠ some i → c.up = true → c.inRead = true →
    (s.owner = some i ∧ (s.nfd ≤ 1 → s.pend ≠ 0)) ∨ T.shutRh i ∈ s.ths
  ad : nc = false → ∀ (i : Nat) (c : C), s.cs[i]? = some c → e ≠ some i → s.owner = some i →
    (s.pend ≠ 0 ∨ (c.inRead = true ∧ T.shutRh i ∉ s.ths)) → c.addr = s.cur
  ix : ∀ t ∈ s.ths, (∀ i, t ≠ .newEn i) ∧ ∀ i, t.ix = some i → i < s.cs.length
  wrc : s.wrCnt = s.cs.countP (·.wr)
  own : ∀ i, s.owner = some i → i ∈ s.udpns
  fin : s.finished = true → s.cnt = 0 ∧ s.closed = true ∧ s.freed = true
  rh1 : s.nfd ≤ 1 → s.ths.countP T.isRh ≤ 1
  nw : s.nfd ≤ 1 → ∀ i, T.new i ∈ s.ths → s.pend = 0 ∨ s.owner = some i
  lg : nc = false → ∀ i a, Ev.read i a ∈ s.log → ∃ c, s.cs[i]? = some c ∧ c.addr = a

section
variable {nc : Bool} {pr : Prop}

theorem J.weak {e : Option Nat} {s : U} (h : J nc pr none s) : J nc pr e s := by
  obtain ⟨h1, h2, h3, h4, h5, h6, h7, h8, h9, h10⟩ := h
  exact ⟨fun i c hc _ => h1 i c hc (by simp), fun i c hc _ => h2 i c hc (by simp), fun hn i c hc _ => h3 hn i c hc (by simp), h4, h5, h6, h7, h8, h9, h10⟩

/-- Fields the invariant does not look at. -/
structure Sj (s t : U) : Prop where
  cs : t.cs = s.cs
  ths : t.ths = s.ths
  wrCnt : t.wrCnt = s.wrCnt
  owner : t.owner = s.owner
  udpns : t.udpns = s.udpns
  finished : t.finished = s.finished
  cnt : t.cnt = s.cnt
  closed : t.closed = s.closed
  freed : t.freed = s.freed
  nfd : t.nfd = s.nfd
  pend : t.pend = s.pend
  cur : t.cur = s.cur
  log : t.log = s.log

theorem J.same {e : Option Nat} {s t : U} (h : J nc pr e s) (m : Sj s t) : J nc pr e t := by
  obtain ⟨h1, h2, h3, h4, h5, h6, h7, h8, h9, h10⟩ := h
  obtain ⟨e1, e2, e3, e4, e5, e6, e7, e8, e9, e10, e11, e12, e13⟩ := m
  constructor
  · rw [e1, e2]; exact h1
  · rw [e1, e2, e4, e10, e11]; exact h2
  · rw [e1, e2, e4, e11, e12]; exact h3
  · rw [e1, e2]; exact h4
  · rw [e3, e1]; exact h5
  · rw [e4, e5]; exact h6
  · rw [e6, e7, e8, e9]; exact h7
  · rw [e10, e2]; exact h8
  · rw [e10, e2, e11, e4]; exact h9
  · rw [e13, e1]; exact h10

theorem J.check {e : Option Nat} {s : U} (h : J nc pr e s) : J nc pr e (checkRead s) := by
  refine h.same ?_
  unfold checkRead
  split
  · constructor <;> rfl
  · split <;> constructor <;> rfl

/-- A line of the log that is not a read. -/
theorem J.say {e : Option Nat} {s : U} {ev : Ev} (h : J nc pr e s) (hr : ∀ i a, ev ≠ .read i a := by simp) : J nc pr e (s.say ev) := by
  obtain ⟨h1, h2, h3, h4, h5, h6, h7, h8, h9, h10⟩ := h
  refine ⟨h1, h2, h3, h4, h5, h6, h7, h8, h9, ?_⟩
  intro hn i a hm
  simp only [U.say, List.mem_append, List.mem_singleton] at hm
  rcases hm with hm | hm
  · exact h10 hn i a hm
  · exact absurd hm.symm (hr i a)

/-- A read. -/
theorem J.sayRead {e : Option Nat} {s : U} {i : Nat} {c : C} (h : J nc pr e s) (hc : s.cs[i]? = some c) (ha : nc = false → c.addr = s.cur) :
    J nc pr e (s.say (.read i s.cur)) := by
  obtain ⟨h1, h2, h3, h4, h5, h6, h7, h8, h9, h10⟩ := h
  refine ⟨h1, h2, h3, h4, h5, h6, h7, h8, h9, ?_⟩
  intro hn j a hm
  simp only [U.say, List.mem_append, List.mem_singleton] at hm
  rcases hm with hm | hm
  · exact h10 hn j a hm
  · cases hm; exact ⟨c, hc, ha hn⟩

/-- A connection of which nothing is said is changed. -/
theorem J.mput {s : U} {i : Nat} {c c' : C} (h : J nc pr (some i) s) (hc : s.cs[i]? = some c) (hw : c'.wr = c.wr := by rfl)
    (ha : c'.addr = c.addr := by rfl) : J nc pr (some i) (s.put i c') := by
  obtain ⟨h1, h2, h3, h4, h5, h6, h7, h8, h9, h10⟩ := h
  constructor
  · intro j d hj hn
    rw [put_get hc, if_neg (fun x => hn (by rw [x]))] at hj
    exact h1 j d hj hn
  · intro j d hj hn
    rw [put_get hc, if_neg (fun x => hn (by rw [x]))] at hj
    exact h2 j d hj hn
  · intro hnc j d hj hn
    rw [put_get hc, if_neg (fun x => hn (by rw [x]))] at hj
    exact h3 hnc j d hj hn
  · intro t ht
    refine ⟨(h4 t ht).1, fun j hj => ?_⟩
    simp only [U.put, List.length_set]
    exact (h4 t ht).2 j hj
  · have e1 := countP_set' (p := (·.wr)) (c' := c') hc
    rw [hw] at e1
    simp only [U.put]; omega
  · exact h6
  · exact h7
  · exact h8
  · exact h9
  · intro hnc j a hm
    obtain ⟨d, hd, hda⟩ := h10 hnc j a hm
    rw [put_get hc]
    by_cases hij : i = j
    · subst hij
      rw [hc] at hd; cases hd
      exact ⟨c', by simp, by rw [ha, hda]⟩
    · exact ⟨d, by rw [if_neg hij]; exact hd, hda⟩

/-- All that has to be said of a connection. -/
structure Full (nc : Bool) (pr : Prop) (s : U) (ths : List T) (i : Nat) (c : C) : Prop where
  q : Q ths i c
  cl : pr → CL c
  d : c.up = true → c.inRead = true → (s.owner = some i ∧ (s.nfd ≤ 1 → s.pend ≠ 0)) ∨ T.shutRh i ∈ ths
  ad : nc = false → s.owner = some i → (s.pend ≠ 0 ∨ (c.inRead = true ∧ T.shutRh i ∉ ths)) → c.addr = s.cur

theorem J.full {s : U} {i : Nat} {c : C} (h : J nc pr none s) (hc : s.cs[i]? = some c) : Full nc pr s s.ths i c :=
  ⟨(h.q i c hc (by simp)).1, (h.q i c hc (by simp)).2, h.d i c hc (by simp), fun hn => h.ad hn i c hc (by simp)⟩

/-- It is said. -/
theorem J.back {s : U} {i : Nat} {c : C} (h : J nc pr (some i) s) (hc : s.cs[i]? = some c) (hf : Full nc pr s s.ths i c) : J nc pr none s := by
  obtain ⟨h1, h2, h3, h4, h5, h6, h7, h8, h9, h10⟩ := h
  refine ⟨?_, ?_, ?_, h4, h5, h6, h7, h8, h9, h10⟩
  · intro j d hj _
    by_cases hij : i = j
    · subst hij; rw [hc] at hj; cases hj; exact ⟨hf.q, hf.cl⟩
    · exact h1 j d hj (by simpa using hij)
  · intro j d hj _
    by_cases hij : i = j
    · subst hij; rw [hc] at hj; cases hj; exact hf.d
    · exact h2 j d hj (by simpa using hij)
  · intro hn j d hj _
    by_cases hij : i = j
    · subst hij; rw [hc] at hj; cases hj; exact hf.ad hn
    · exact h3 hn j d hj (by simpa using hij)

/-- A thread of a connection of which nothing is said. -/
theorem J.mcall {s : U} {i : Nat} {t : T} {c : C} (h : J nc pr (some i) s) (hc : s.cs[i]? = some c) (ht : t.ix = some i) (hne : ∀ j, t ≠ .newEn j)
    (hr : t.isRh = true → s.nfd ≤ 1 → s.ths.countP T.isRh = 0) (hw : ∀ j, t = .new j → s.nfd ≤ 1 → s.pend = 0 ∨ s.owner = some j) :
    J nc pr (some i) (s.call t) := by
  obtain ⟨h1, h2, h3, h4, h5, h6, h7, h8, h9, h10⟩ := h
  constructor
  · intro j d hj hn
    obtain ⟨q, cl⟩ := h1 j d hj hn
    refine ⟨?_, cl⟩
    have hx : t.ix ≠ some j := by rw [ht]; exact hn
    obtain ⟨q1, q2, q3, q4, q5, q6, q7, q8, q9, q10, q11, q12⟩ := q
    refine ⟨?_, ?_, ?_, ?_, q5, q6, q7, q8, q9, q10, q11, q12⟩
    · simp only [U.call, List.countP_cons, T.rdr_of hx]; simpa using q1
    · simp only [U.call, List.countP_cons, T.wtr_of hx]; simpa using q2
    · simp only [U.call, List.countP_cons, T.opr_of hx]; simpa using q3
    · simp only [U.call, List.countP_cons, T.clr_of hx]; simpa using q4
  · intro j d hj hn hu hi
    rcases h2 j d hj hn hu hi with x | x
    · exact .inl x
    · exact .inr (List.mem_cons_of_mem _ x)
  · intro hnc j d hj hn ho hx
    refine h3 hnc j d hj hn ho ?_
    rcases hx with x | ⟨x, y⟩
    · exact .inl x
    · exact .inr ⟨x, fun z => y (List.mem_cons_of_mem _ z)⟩
  · intro u hu
    simp only [U.call, List.mem_cons] at hu
    rcases hu with rfl | hu
    · refine ⟨hne, fun j hj => ?_⟩
      rw [ht] at hj; cases hj
      exact (List.getElem?_eq_some_iff.mp hc).1
    · exact h4 u hu
  · exact h5
  · exact h6
  · exact h7
  · intro hnf
    simp only [U.call, List.countP_cons]
    have := h8 hnf
    split
    · rename_i hx; have := hr hx hnf; omega
    · omega
  · intro hnf j hj
    simp only [U.call, List.mem_cons] at hj
    rcases hj with hj | hj
    · exact hw j hj.symm hnf
    · exact h9 hnf j hj
  · exact h10

/-- A thread of no connection. -/
theorem J.call0 {e : Option Nat} {s : U} {t : T} (h : J nc pr e s) (ht : t.ix = none) (hr : t.isRh = false) : J nc pr e (s.call t) := by
  obtain ⟨h1, h2, h3, h4, h5, h6, h7, h8, h9, h10⟩ := h
  constructor
  · intro j d hj hn
    obtain ⟨q, cl⟩ := h1 j d hj hn
    refine ⟨?_, cl⟩
    have hx : t.ix ≠ some j := by rw [ht]; simp
    obtain ⟨q1, q2, q3, q4, q5, q6, q7, q8, q9, q10, q11, q12⟩ := q
    refine ⟨?_, ?_, ?_, ?_, q5, q6, q7, q8, q9, q10, q11, q12⟩
    · simp only [U.call, List.countP_cons, T.rdr_of hx]; simpa using q1
    · simp only [U.call, List.countP_cons, T.wtr_of hx]; simpa using q2
    · simp only [U.call, List.countP_cons, T.opr_of hx]; simpa using q3
    · simp only [U.call, List.countP_cons, T.clr_of hx]; simpa using q4
  · intro j d hj hn hu hi
    rcases h2 j d hj hn hu hi with x | x
    · exact .inl x
    · exact .inr (List.mem_cons_of_mem _ x)
  · intro hnc j d hj hn ho hx
    refine h3 hnc j d hj hn ho ?_
    rcases hx with x | ⟨x, y⟩
    · exact .inl x
    · exact .inr ⟨x, fun z => y (List.mem_cons_of_mem _ z)⟩
  · intro u hu
    simp only [U.call, List.mem_cons] at hu
    rcases hu with rfl | hu
    · refine ⟨fun j hj => ?_, fun j hj => ?_⟩
      · rw [hj] at ht; cases ht
      · rw [ht] at hj; cases hj
    · exact h4 u hu
  · exact h5
  · exact h6
  · exact h7
  · intro hnf
    simp only [U.call, List.countP_cons, hr]
    have := h8 hnf
    simpa using this
  · intro hnf j hj
    simp only [U.call, List.mem_cons] at hj
    rcases hj with hj | hj
    · rw [← hj] at ht; cases ht
    · exact h9 hnf j hj
  · exact h10

theorem countP_erase {p : T → Bool} {l : List T} {k : Nat} {t : T} (h : l[k]? = some t) : l.countP p = (l.eraseIdx k).countP p + b2n (p t) := by
  induction l generalizing k with
  | nil => simp at h
  | cons u l ih =>
    cases k with
    | zero =>
      simp at h; subst h
      simp only [List.eraseIdx_cons_zero, List.countP_cons]
      cases p u <;> simp
    | succ k =>
      simp at h
      simp only [List.eraseIdx_cons_succ, List.countP_cons, ih h]
      omega

/-- A thread comes back. -/
theorem J.erase {s : U} {k i : Nat} {t : T} (h : J nc pr none s) (hk : s.ths[k]? = some t) (ht : t.ix = some i) :
    J nc pr (some i) { s with ths := s.ths.eraseIdx k } := by
  obtain ⟨h1, h2, h3, h4, h5, h6, h7, h8, h9, h10⟩ := h
  have hin : ∀ u, u ∈ s.ths.eraseIdx k → u ∈ s.ths := fun u hu => (List.eraseIdx_sublist ..).mem hu
  have hsh : ∀ j, some i ≠ some j → (T.shutRh j ∈ s.ths.eraseIdx k ↔ T.shutRh j ∈ s.ths) := by
    intro j hj
    refine ⟨hin _, fun hm => ?_⟩
    have e1 := countP_erase (p := fun u => u == T.shutRh j) hk
    have : 0 < s.ths.countP (fun u => u == T.shutRh j) := List.countP_pos_iff.mpr ⟨_, hm, by simp⟩
    have ht' : (t == T.shutRh j) = false := by
      cases hx : t == T.shutRh j
      · rfl
      · have : t = T.shutRh j := by simpa using hx
        rw [this] at ht; exact absurd ht.symm hj
    rw [ht'] at e1
    simp only [b2n_false, Nat.add_zero] at e1
    rw [e1] at this
    obtain ⟨u, hu, he⟩ := List.countP_pos_iff.mp this
    have : u = T.shutRh j := by simpa using he
    rw [← this]; exact hu
  constructor
  · intro j d hj hn
    obtain ⟨q, cl⟩ := h1 j d hj (by simp)
    refine ⟨?_, cl⟩
    have hx : t.ix ≠ some j := by rw [ht]; exact hn
    obtain ⟨q1, q2, q3, q4, q5, q6, q7, q8, q9, q10, q11, q12⟩ := q
    have e1 := countP_erase (p := T.rdr j) hk
    have e2 := countP_erase (p := T.wtr j) hk
    have e3 := countP_erase (p := T.opr j) hk
    have e4 := countP_erase (p := T.clr j) hk
    rw [T.rdr_of hx] at e1; rw [T.wtr_of hx] at e2; rw [T.opr_of hx] at e3; rw [T.clr_of hx] at e4
    simp only [b2n_false, Nat.add_zero] at e1 e2 e3 e4
    exact ⟨e1 ▸ q1, e2 ▸ q2, e3 ▸ q3, e4 ▸ q4, q5, q6, q7, q8, q9, q10, q11, q12⟩
  · intro j d hj hn hu hi
    rcases h2 j d hj (by simp) hu hi with x | x
    · exact .inl x
    · exact .inr ((hsh j hn).mpr x)
  · intro hnc j d hj hn ho hx
    refine h3 hnc j d hj (by simp) ho ?_
    rcases hx with x | ⟨x, y⟩
    · exact .inl x
    · exact .inr ⟨x, fun z => y ((hsh j hn).mpr z)⟩
  · exact fun u hu => h4 u (hin u hu)
  · exact h5
  · exact h6
  · exact h7
  · intro hnf
    have := h8 hnf
    have e1 := countP_erase (p := T.isRh) hk
    dsimp only at *
    omega
  · exact fun hnf j hj => h9 hnf j (hin _ hj)
  · exact h10

theorem J.erase0 {s : U} {k : Nat} {t : T} (h : J nc pr none s) (hk : s.ths[k]? = some t) (ht : t.ix = none) :
    J nc pr none { s with ths := s.ths.eraseIdx k } := by
  obtain ⟨h1, h2, h3, h4, h5, h6, h7, h8, h9, h10⟩ := h
  have hin : ∀ u, u ∈ s.ths.eraseIdx k → u ∈ s.ths := fun u hu => (List.eraseIdx_sublist ..).mem hu
  have hsh : ∀ j, (T.shutRh j ∈ s.ths.eraseIdx k ↔ T.shutRh j ∈ s.ths) := by
    intro j
    refine ⟨hin _, fun hm => ?_⟩
    have e1 := countP_erase (p := fun u => u == T.shutRh j) hk
    have : 0 < s.ths.countP (fun u => u == T.shutRh j) := List.countP_pos_iff.mpr ⟨_, hm, by simp⟩
    have ht' : (t == T.shutRh j) = false := by
      cases hx : t == T.shutRh j
      · rfl
      · have : t = T.shutRh j := by simpa using hx
        rw [this] at ht; cases ht
    rw [ht'] at e1
    simp only [b2n_false, Nat.add_zero] at e1
    rw [e1] at this
    obtain ⟨u, hu, he⟩ := List.countP_pos_iff.mp this
    have : u = T.shutRh j := by simpa using he
    rw [← this]; exact hu
  constructor
  · intro j d hj hn
    obtain ⟨q, cl⟩ := h1 j d hj (by simp)
    refine ⟨?_, cl⟩
    have hx : t.ix ≠ some j := by rw [ht]; simp
    obtain ⟨q1, q2, q3, q4, q5, q6, q7, q8, q9, q10, q11, q12⟩ := q
    have e1 := countP_erase (p := T.rdr j) hk
    have e2 := countP_erase (p := T.wtr j) hk
    have e3 := countP_erase (p := T.opr j) hk
    have e4 := countP_erase (p := T.clr j) hk
    rw [T.rdr_of hx] at e1; rw [T.wtr_of hx] at e2; rw [T.opr_of hx] at e3; rw [T.clr_of hx] at e4
    simp only [b2n_false, Nat.add_zero] at e1 e2 e3 e4
    exact ⟨e1 ▸ q1, e2 ▸ q2, e3 ▸ q3, e4 ▸ q4, q5, q6, q7, q8, q9, q10, q11, q12⟩
  · intro j d hj hn hu hi
    rcases h2 j d hj (by simp) hu hi with x | x
    · exact .inl x
    · exact .inr ((hsh j).mpr x)
  · intro hnc j d hj hn ho hx
    refine h3 hnc j d hj (by simp) ho ?_
    rcases hx with x | ⟨x, y⟩
    · exact .inl x
    · exact .inr ⟨x, fun z => y ((hsh j).mpr z)⟩
  · exact fun u hu => h4 u (hin u hu)
  · exact h5
  · exact h6
  · exact h7
  · intro hnf
    have := h8 hnf
    have e1 := countP_erase (p := T.isRh) hk
    dsimp only at *
    omega
  · exact fun hnf j hj => h9 hnf j (hin _ hj)
  · exact h10

/-- The datagram of a connection is dropped. -/
theorem J.drop {s : U} {i : Nat} (h : J nc pr (some i) s) (ho : s.owner = some i) : J nc pr (some i) { s with owner := none, pend := 0 } := by
  obtain ⟨h1, h2, h3, h4, h5, h6, h7, h8, h9, h10⟩ := h
  refine ⟨h1, ?_, ?_, h4, h5, by simp, h7, h8, by simp, h10⟩
  · intro j d hj hn hu hi
    rcases h2 j d hj hn hu hi with x | x
    · exact absurd (ho ▸ x.1) (by simpa using hn)
    · exact .inr x
  · intro _ j d hj hn ho'
    cases ho'

/-- A part of the datagram is taken. -/
theorem J.part {s : U} {n : Nat} {e : Option Nat} (h : J nc pr e s) (hn : n ≠ 0) (h0 : s.pend ≠ 0) : J nc pr e { s with pend := n } := by
  obtain ⟨h1, h2, h3, h4, h5, h6, h7, h8, h9, h10⟩ := h
  refine ⟨h1, ?_, ?_, h4, h5, h6, h7, h8, ?_, h10⟩
  · intro j d hj he hu hi
    rcases h2 j d hj he hu hi with x | x
    · exact .inl ⟨x.1, fun _ => hn⟩
    · exact .inr x
  · intro hnc j d hj he ho hx
    exact h3 hnc j d hj he ho (.inl h0)
  · intro hnf j hj
    rcases h9 hnf j hj with x | x
    · exact absurd x h0
    · exact .inr x

end
end Gensio.Dgram
