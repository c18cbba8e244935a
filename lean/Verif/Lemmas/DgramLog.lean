import Verif.Lemmas.DgramSafe

/-! What the users of datagram gensios are told, in all runs. -/
set_option linter.unusedSimpArgs false
namespace Gensio.Dgram

theorem J.acc {nc : Bool} {pr : Prop} : J nc pr none initAcc := by
  constructor <;> simp [initAcc]

theorem J.client {nc : Bool} {pr : Prop} (a : Nat) : J nc pr none (initClient a) := by
  constructor
  · intro i c hc _
    cases i <;> simp [initClient, initAcc] at hc
    subst hc
    refine ⟨?_, ?_⟩
    · constructor <;> simp [initClient, initAcc, C.new]
    · intro _ hx; cases hx
  · intro i c hc _ hu
    cases i <;> simp [initClient, initAcc] at hc
    subst hc; cases hu
  · intro _ i c _ _ ho; cases ho
  all_goals simp [initClient, initAcc, C.new]

theorem J.reach {g : Cfg} {P : U → Op → Prop} {s : U} {pr : Prop} (hP : ∀ s op, P s op → Calm s op ∧ (pr → Prompt s op)) (h : Reach g P s) :
    J g.nocon pr none s := by
  induction h with
  | acc => exact J.acc
  | client a => exact J.client a
  | step op hr hcan hp e ih =>
    obtain ⟨t, ht, hJ⟩ := ih.step rfl (I.reach hr) hcan (hP _ _ hp).1 (hP _ _ hp).2
    rw [ht] at e; cases e; exact hJ

/-- Whether a close with the callback `id` is not reported yet. -/
def cdn (s : U) (i id : Nat) : Nat := b2n (decide ((s.cs[i]?.bind (·.closeDone)) = some id))

/-- Whether an open with the callback `id` is not reported yet. -/
def odn (s : U) (i id : Nat) : Nat := b2n (decide ((s.cs[i]?.bind fun c => if c.st = .inOpen then c.openDone else none) = some id))

/-- Threads in the read handler for a new connection. -/
def T.isNew : T → Bool
  | .new _ | .newEn _ => true
  | _ => false

/-- Requests and reports. -/
structure L (w : Bool) (s : U) : Prop where
  cl : ∀ i id, s.log.count (.closed i id) + cdn s i id ≤ s.log.count (.close i id) ∧
    ((∀ c, s.cs[i]? = some c → c.freed = false) → s.log.count (.closed i id) + cdn s i id = s.log.count (.close i id))
  op : ∀ i id, s.log.count (.opened i id) + odn s i id ≤ s.log.count (.opn i id)
  cd : ∀ (i : Nat) (c : C), s.cs[i]? = some c → c.closeDone ≠ none → c.st = .inClose
  sh : ∀ id, s.log.count (.shutCb id) + b2n (s.inShut && decide (s.shutDone = some id)) = s.log.count (.shut id)
  en : ∀ id, s.log.count (.enCb id) + b2n (decide (s.enDone = some id)) = s.log.count (.en id)
  er : s.enDone ≠ none → s.enRun = true ∨ s.inNew = true
  nn : w = false → s.inNew = true → 0 < s.ths.countP T.isNew

/-- Fields `L` does not look at. -/
structure Sl (s t : U) : Prop where
  cs : t.cs = s.cs
  log : t.log = s.log
  inShut : t.inShut = s.inShut
  shutDone : t.shutDone = s.shutDone
  enDone : t.enDone = s.enDone
  enRun : t.enRun = s.enRun
  inNew : t.inNew = s.inNew
  ths : t.ths = s.ths

theorem L.same {w : Bool} {s t : U} (h : L w s) (m : Sl s t) : L w t := by
  obtain ⟨h1, h2, h3, h4, h5, h6, h7⟩ := h
  obtain ⟨e1, e2, e3, e4, e5, e6, e7, e8⟩ := m
  constructor
  · intro i id; simp only [cdn]; rw [e1, e2]; exact h1 i id
  · intro i id; simp only [odn]; rw [e1, e2]; exact h2 i id
  · rw [e1]; exact h3
  · rw [e2, e3, e4]; exact h4
  · rw [e2, e5]; exact h5
  · rw [e5, e6, e7]; exact h6
  · rw [e7, e8]; exact h7

theorem checkRead_sl (s : U) : Sl s (checkRead s) := by
  unfold checkRead
  split
  · constructor <;> rfl
  · split <;> constructor <;> rfl

/-- A connection is changed in a way that is not looked at. -/
theorem L.put {w : Bool} {s : U} {i : Nat} {c c' : C} (h : L w s) (hc : s.cs[i]? = some c) (h1 : c'.closeDone = c.closeDone := by rfl)
    (h2 : c'.st = c.st := by rfl) (h3 : c'.openDone = c.openDone := by rfl) (h4 : c'.freed = c.freed := by rfl) : L w (s.put i c') := by
  obtain ⟨g1, g2, g3, g4, g5, g6, g7⟩ := h
  refine ⟨?_, ?_, ?_, g4, g5, g6, g7⟩
  · intro j id
    have e : cdn (s.put i c') j id = cdn s j id := by
      simp only [cdn]; rw [put_get hc]
      split
      · rename_i hij; subst hij; simp [hc, h1]
      · rfl
    rw [e]
    refine ⟨(g1 j id).1, fun hx => (g1 j id).2 ?_⟩
    intro d hd
    by_cases hij : i = j
    · subst hij; rw [hc] at hd; cases hd
      rw [← h4]; exact hx c' (by rw [put_get hc]; simp)
    · exact hx d (by rw [put_get hc, if_neg hij]; exact hd)
  · intro j id
    have e : odn (s.put i c') j id = odn s j id := by
      simp only [odn]; rw [put_get hc]
      split
      · rename_i hij; subst hij; simp [hc, h2, h3]
      · rfl
    rw [e]; exact g2 j id
  · intro j d hj
    rw [put_get hc] at hj
    split at hj
    · rename_i hij; subst hij; cases hj; rw [h1, h2]; exact g3 _ c hc
    · exact g3 j d hj

/-- A line that is neither a request nor a report. -/
theorem L.say {w : Bool} {s : U} {e : Ev} (h : L w s) (he : (∃ i a, e = .new i a) ∨ (∃ i a, e = .read i a) ∨ ∃ i, e = .free i) : L w (s.say e) := by
  have hcount : ∀ f : Ev, ((∃ i id, f = .closed i id) ∨ (∃ i id, f = .close i id) ∨ (∃ i id, f = .opened i id) ∨ (∃ i id, f = .opn i id) ∨ (∃ id, f = .shut id) ∨
      (∃ id, f = .shutCb id) ∨ (∃ id, f = .en id) ∨ ∃ id, f = .enCb id) → (s.log ++ [e]).count f = s.log.count f := by
    intro f hf
    have hne : ¬ e = f := by
      rintro rfl
      rcases he with ⟨_, _, rfl⟩ | ⟨_, _, rfl⟩ | ⟨_, rfl⟩ <;> simp at hf
    rw [List.count_append, List.count_singleton]
    simp [hne]
  obtain ⟨g1, g2, g3, g4, g5, g6, g7⟩ := h
  refine ⟨?_, ?_, g3, ?_, ?_, g6, g7⟩
  · intro i id
    simp only [U.say]
    rw [hcount _ (by simp), hcount _ (by simp)]; exact g1 i id
  · intro i id
    simp only [U.say]
    rw [hcount _ (by simp), hcount _ (by simp)]; exact g2 i id
  · intro id
    simp only [U.say]
    rw [hcount _ (by simp), hcount _ (by simp)]; exact g4 id
  · intro id
    simp only [U.say]
    rw [hcount _ (by simp), hcount _ (by simp)]; exact g5 id

theorem L.call {w : Bool} {s : U} {t : T} (h : L w s) : L w (s.call t) := by
  obtain ⟨g1, g2, g3, g4, g5, g6, g7⟩ := h
  refine ⟨g1, g2, g3, g4, g5, g6, ?_⟩
  intro hw hn
  have := g7 hw hn
  simp only [U.call, List.countP_cons]; omega

theorem L.ref {w : Bool} {s t : U} (h : L w s) (e : Dgram.ref s = some t) : L w t := by
  unfold Dgram.ref at e
  split at e
  · cases e
  · cases e; exact h.same (by constructor <;> rfl)

theorem L.deref {w : Bool} {s t : U} (h : L w s) (e : Dgram.deref s = some t) : L w t := by
  unfold Dgram.deref at e
  split at e
  · cases e
  · split at e <;> cases e <;> exact h.same (by constructor <;> rfl)

theorem L.startDop {w : Bool} {s t : U} (h : L w s) (e : Dgram.startDop s = some t) : L w t := by
  unfold Dgram.startDop at e
  split at e
  · cases e; exact h
  · cases hr : Dgram.ref s with
    | none => rw [hr] at e; cases e
    | some u => rw [hr] at e; cases e; exact (h.ref hr).same (by constructor <;> rfl)

theorem L.check {w : Bool} {s : U} (h : L w s) : L w (checkRead s) := h.same (checkRead_sl s)

theorem L.fdReadEnable {w : Bool} {s t : U} (h : L w s) (e : Dgram.fdReadEnable s = some t) : L w t := by
  unfold Dgram.fdReadEnable at e
  split at e
  · cases e
  · cases e; exact L.check (h.same (by constructor <;> rfl))

theorem L.fdWriteDisable {w : Bool} {s t : U} (h : L w s) (e : Dgram.fdWriteDisable s = some t) : L w t := by
  unfold Dgram.fdWriteDisable at e
  split at e
  · cases e
  · cases e; exact h.same (by constructor <;> rfl)

theorem L.checkFinish {w : Bool} {s t : U} (h : L w s) (e : Dgram.checkFinish s = some t) : L w t := by
  unfold Dgram.checkFinish at e
  split at e
  · cases e; exact h
  · split at e
    · cases e
    · cases e; exact h.same (by constructor <;> rfl)

theorem L.finishFree {w : Bool} {s t : U} {i : Nat} (h : L w s) (e : Dgram.finishFree s i = some t) : L w t := by
  unfold Dgram.finishFree at e
  obtain ⟨c, hg, e⟩ := bind_some' e
  obtain ⟨hc, hgo⟩ := get_some.mp hg
  split at e
  · cases e
  · refine L.checkFinish ?_ e
    exact (h.put (c' := { c with gone := true }) hc).same (by constructor <;> rfl)

theorem L.outEnable {w : Bool} {s t : U} (h : L w s) (e : Dgram.outEnable s = some t) : L w t := by
  unfold Dgram.outEnable at e
  split at e
  · obtain ⟨u, hu, e⟩ := bind_some' e
    refine L.deref (L.fdReadEnable ?_ hu) e
    exact h.same (by constructor <;> rfl)
  · exact h.deref e

theorem L.afterWr {w : Bool} {s t : U} (h : L w s) (e : Dgram.afterWr s = some t) : L w t := by
  unfold Dgram.afterWr at e
  refine L.deref ?_ e
  split
  · exact h.same (by constructor <;> rfl)
  · exact h

theorem L.fin {w : Bool} {s t : U} {ctx : Ctx} (h : L w s) (e : Dgram.fin ctx s = some t) : L w t := by
  cases ctx
  · exact h.outEnable e
  · exact h.deref e
  · exact h.afterWr e

theorem L.finishClose2 {w : Bool} {s t : U} {i : Nat} (h : L w s) (e : Dgram.finishClose2 s i = some t) : L w t := by
  unfold Dgram.finishClose2 at e
  obtain ⟨c, hg, e⟩ := bind_some' e
  have h' : L w (if s.owner = some i then { s with owner := none, pend := 0 } else s) := by
    split
    · exact h.same (by constructor <;> rfl)
    · exact h
  dsimp only at e
  split at e
  · exact h'.finishFree e
  · cases e; exact h'

/-- A step that adds `es` to the log and does not change connections. -/
theorem L.upd {w w' : Bool} {s t : U} (h : L w s) (es : List Ev) (hcs : t.cs = s.cs) (hl : t.log = s.log ++ es)
    (h0 : ∀ i id, es.count (.closed i id) = 0 ∧ es.count (.close i id) = 0 ∧ es.count (.opened i id) = 0 ∧ es.count (.opn i id) = 0)
    (hsh : ∀ id, es.count (.shutCb id) + b2n (t.inShut && decide (t.shutDone = some id)) = es.count (.shut id) + b2n (s.inShut && decide (s.shutDone = some id)))
    (hen : ∀ id, es.count (.enCb id) + b2n (decide (t.enDone = some id)) = es.count (.en id) + b2n (decide (s.enDone = some id)))
    (her : t.enDone ≠ none → t.enRun = true ∨ t.inNew = true) (hnn : w' = false → t.inNew = true → 0 < t.ths.countP T.isNew) : L w' t := by
  obtain ⟨g1, g2, g3, g4, g5, g6, g7⟩ := h
  refine ⟨?_, ?_, by rw [hcs]; exact g3, ?_, ?_, her, hnn⟩
  · intro i id
    have := g1 i id
    have k := h0 i id
    simp only [cdn] at this ⊢
    rw [hcs, hl, List.count_append, List.count_append, k.1, k.2.1]
    simpa using this
  · intro i id
    have := g2 i id
    have k := h0 i id
    simp only [odn] at this ⊢
    rw [hcs, hl, List.count_append, List.count_append, k.2.2.1, k.2.2.2]
    simpa using this
  · intro id
    have := g4 id
    have k := hsh id
    rw [hl, List.count_append, List.count_append]; omega
  · intro id
    have := g5 id
    have k := hen id
    rw [hl, List.count_append, List.count_append]; omega

/-- A step that adds `es` to the log and changes connection `i`. -/
theorem L.updPut {w : Bool} {s t : U} {i : Nat} {c c' : C} (h : L w s) (hc : s.cs[i]? = some c) (es : List Ev) (hcs : t.cs = s.cs.set i c') (hl : t.log = s.log ++ es)
    (h0 : ∀ j id, i ≠ j → es.count (.closed j id) = 0 ∧ es.count (.close j id) = 0 ∧ es.count (.opened j id) = 0 ∧ es.count (.opn j id) = 0)
    (h1 : ∀ id, es.count (.shutCb id) = 0 ∧ es.count (.shut id) = 0 ∧ es.count (.enCb id) = 0 ∧ es.count (.en id) = 0)
    (hf : c'.freed = false → c.freed = false)
    (hcl : ∀ id, es.count (.closed i id) + b2n (decide (c'.closeDone = some id)) ≤ es.count (.close i id) + b2n (decide (c.closeDone = some id)))
    (hcl' : c'.freed = false → ∀ id, es.count (.closed i id) + b2n (decide (c'.closeDone = some id)) = es.count (.close i id) + b2n (decide (c.closeDone = some id)))
    (hop : ∀ id, es.count (.opened i id) + b2n (decide ((if c'.st = .inOpen then c'.openDone else none) = some id)) ≤
      es.count (.opn i id) + b2n (decide ((if c.st = .inOpen then c.openDone else none) = some id)))
    (hcd : c'.closeDone ≠ none → c'.st = .inClose)
    (e3 : t.inShut = s.inShut := by rfl) (e4 : t.shutDone = s.shutDone := by rfl) (e5 : t.enDone = s.enDone := by rfl) (e6 : t.enRun = s.enRun := by rfl)
    (e7 : t.inNew = s.inNew := by rfl) (e8 : t.ths = s.ths := by rfl) : L w t := by
  have hget : ∀ j : Nat, t.cs[j]? = if i = j then some c' else s.cs[j]? := by
    intro j; rw [hcs]; exact put_get hc
  obtain ⟨g1, g2, g3, g4, g5, g6, g7⟩ := h
  refine ⟨?_, ?_, ?_, ?_, ?_, ?_, ?_⟩
  · intro j id
    have g := g1 j id
    simp only [cdn] at g ⊢
    rw [hget, hl, List.count_append, List.count_append]
    by_cases hij : i = j
    · subst hij
      rw [hc] at g
      rw [if_pos rfl]
      simp only [Option.bind_some] at g ⊢
      have k := hcl id
      refine ⟨by omega, fun hx => ?_⟩
      have hx := hx c' rfl
      have k' := hcl' hx id
      have := g.2 (fun d hd => by cases hd; exact hf hx)
      omega
    · have k := h0 j id hij
      rw [if_neg hij, k.1, k.2.1]; simpa using g
  · intro j id
    have g := g2 j id
    simp only [odn] at g ⊢
    rw [hget, hl, List.count_append, List.count_append]
    by_cases hij : i = j
    · subst hij
      rw [hc] at g
      rw [if_pos rfl]
      simp only [Option.bind_some] at g ⊢
      have k := hop id
      omega
    · have k := h0 j id hij
      rw [if_neg hij, k.2.2.1, k.2.2.2]; simpa using g
  · intro j d hj
    rw [hget] at hj
    split at hj
    · cases hj; exact hcd
    · exact g3 j d hj
  · intro id
    have k := h1 id
    rw [hl, List.count_append, List.count_append, k.1, k.2.1, e3, e4]; exact g4 id
  · intro id
    have k := h1 id
    rw [hl, List.count_append, List.count_append, k.2.2.1, k.2.2.2, e5]; exact g5 id
  · rw [e5, e6, e7]; exact g6
  · rw [e7, e8]; exact g7

theorem L.finishClose {w : Bool} {s t : U} {i : Nat} {ctx : Ctx} {c : C} (h : L w s) (hg : s.get i = some c) (hst : c.st = .inClose)
    (e : Dgram.finishClose s i ctx = some t) : L w t := by
  obtain ⟨hc, hgo⟩ := get_some.mp hg
  unfold Dgram.finishClose at e
  rw [hg, Option.bind_some] at e
  split at e
  · exact h.fin e
  · split at e
    · rename_i id hid
      cases e
      refine L.call ?_
      refine h.updPut (c' := { c with st := .closed, closeDone := none, inCloseCb := true }) hc [.closed i id] rfl rfl ?_ ?_ (fun x => x) ?_ ?_ ?_ ?_
      · intro j id' hij; simp [hij]
      · intro id'; simp
      · intro id'; by_cases hh : id = id' <;> simp [hh, hid]
      · intro _ id'; by_cases hh : id = id' <;> simp [hh, hid]
      · intro id'; simp
      · simp
    · rename_i hid
      obtain ⟨u, hu, e⟩ := bind_some' e
      refine L.fin (L.finishClose2 ?_ hu) e
      refine h.updPut (c' := { c with st := .closed }) hc [] rfl (List.append_nil _).symm ?_ ?_ (fun x => x) ?_ ?_ ?_ ?_ <;> simp [hid]

/-- A shutdown is reported. -/
theorem L.shut {w : Bool} {s : U} {id : Nat} (h : L w s) (hs : s.inShut = true) (hd : s.shutDone = some id) : L w (U.say { s with inShut := false } (.shutCb id)) := by
  refine h.upd [.shutCb id] rfl rfl (by simp) ?_ (fun id' => by simp; rfl) h.er h.nn
  intro id'
  by_cases hh : id = id' <;> simp [hh, hs, hd, U.say]

theorem L.shut0 {w : Bool} {s : U} (h : L w s) (hd : s.shutDone = none) : L w { s with inShut := false } := by
  obtain ⟨g1, g2, g3, g4, g5, g6, g7⟩ := h
  refine ⟨g1, g2, g3, ?_, g5, g6, g7⟩
  intro id
  have := g4 id
  rw [hd] at this
  simpa using this

theorem L.afterRead {w : Bool} {s t : U} {i : Nat} (h : L w s) (e : Dgram.afterRead s i = some t) : L w t := by
  unfold Dgram.afterRead at e
  obtain ⟨c, hg, e⟩ := bind_some' e
  obtain ⟨hc, hgo⟩ := get_some.mp hg
  split at e
  · rename_i hst
    exact h.finishClose hg hst e
  · split at e
    · rename_i hs
      split at e
      · rename_i id hd
        cases e
        refine L.call ?_
        have := (h.shut hs hd).put (c' := { c with inRead := true }) hc
        exact this
      · rename_i hd
        obtain ⟨u, hu, e⟩ := bind_some' e
        exact (((h.shut0 hd).put hc).checkFinish hu).outEnable e
    · obtain ⟨u, hu, e⟩ := bind_some' e
      exact (h.checkFinish hu).outEnable e

theorem L.callRead {w : Bool} {s : U} {i : Nat} {rh : Bool} (h : L w s) : L w (Dgram.callRead s i rh) :=
  (h.say (.inr (.inl ⟨_, _, rfl⟩))).call

theorem L.gotNdata {w : Bool} {s t : U} {i : Nat} (h : L w s) (e : Dgram.gotNdata s i = some t) : L w t := by
  unfold Dgram.gotNdata at e
  obtain ⟨c, hg, e⟩ := bind_some' e
  obtain ⟨hc, hgo⟩ := get_some.mp hg
  split at e
  · cases e; exact (h.put hc).callRead
  · exact h.afterRead e

theorem L.dopEnd {w : Bool} {s t : U} (h : L w s) (e : Dgram.dopEnd s = some t) : L w t := by
  unfold Dgram.dopEnd at e
  refine L.deref ?_ e
  split
  · exact h.check
  · exact h

theorem L.dopRest {w : Bool} {s t : U} (h : L w s) (e : Dgram.dopRest s = some t) : L w t := by
  unfold Dgram.dopRest at e
  split at e
  · rename_i hs
    split at e
    · rename_i id hd
      cases e; exact (h.shut hs.1 hd).call
    · rename_i hd
      obtain ⟨u, hu, e⟩ := bind_some' e
      exact ((h.shut0 hd).checkFinish hu).dopEnd e
  · exact h.dopEnd e

theorem L.readCont {w : Bool} {s t : U} {i : Nat} {rh err : Bool} {count : Nat} (h : L w s) (e : Dgram.readCont s i rh err count = some t) : L w t := by
  unfold Dgram.readCont at e
  obtain ⟨c, hg, e⟩ := bind_some' e
  obtain ⟨hc, hgo⟩ := get_some.mp hg
  have out : ∀ u : U, L w u → u.cs = s.cs →
      (if rh then Dgram.afterRead (checkRead (u.put i { c with inRead := false })) i else Dgram.dopRest (checkRead (u.put i { c with inRead := false }))) = some t →
      L w t := by
    intro u hu hcs e
    have hc' : u.cs[i]? = some c := by rw [hcs]; exact hc
    have h' := (hu.put (c' := { c with inRead := false }) hc').check
    split at e
    · exact h'.afterRead e
    · exact h'.dopRest e
  dsimp only at e
  split at e
  · exact out _ h rfl e
  · split at e
    · exact out _ h rfl e
    · have h' : L w { s with pend := s.pend - count } := h.same (by constructor <;> rfl)
      split at e
      · split at e
        · cases e; exact h'.callRead
        · exact out _ h' rfl e
      · exact out _ (h.same (t := { s with owner := none, pend := 0 }) (by constructor <;> rfl)) rfl e

/-- An `enable_done`. -/
theorem L.enable {w w' : Bool} {s u : U} {id : Nat} (h : L w s) (hd : s.enDone = some id) (e1 : u.cs = s.cs) (e2 : u.log = s.log ++ [.enCb id]) (e3 : u.inShut = s.inShut)
    (e4 : u.shutDone = s.shutDone) (e5 : u.enDone = none) (hn : w' = false → u.inNew = true → 0 < u.ths.countP T.isNew) : L w' u := by
  refine h.upd [.enCb id] e1 e2 (by simp) (by simp [e3, e4]) ?_ (by simp [e5]) hn
  intro id'
  by_cases hh : id = id' <;> simp [hh, hd, e5]

theorem L.newCont {w : Bool} {s t : U} {i : Nat} (h : L w s) (e : Dgram.newCont s i = some t) : L false t := by
  unfold Dgram.newCont at e
  split at e
  · rename_i id hd
    cases e
    refine h.enable hd rfl rfl rfl rfl rfl ?_
    intro _ _
    simp [U.call, U.say, T.isNew]
  · rename_i hd
    obtain ⟨c, hg, e⟩ := bind_some' e
    dsimp only at e
    have h' : ∀ n, L false { s with inNew := false, pend := n } := by
      intro n
      obtain ⟨g1, g2, g3, g4, g5, g6, g7⟩ := h
      exact ⟨g1, g2, g3, g4, g5, fun hx => absurd hd hx, by simp⟩
    split at e
    · exact (h' s.pend).gotNdata e
    · exact (h' 0).afterRead e

/-- A connection is added. -/
theorem L.add {w : Bool} {s t : U} {c : C} (h : L w s) (hcs : t.cs = s.cs ++ [c]) (h1 : c.closeDone = none) (h2 : c.openDone = none) (h3 : c.freed = false)
    (e2 : t.log = s.log) (e3 : t.inShut = s.inShut) (e4 : t.shutDone = s.shutDone) (e5 : t.enDone = s.enDone) (e6 : t.enRun = s.enRun)
    (e7 : t.inNew = s.inNew) (e8 : t.ths = s.ths) : L w t := by
  have hget : ∀ j : Nat, t.cs[j]? = if j = s.cs.length then some c else s.cs[j]? := by
    intro j
    rw [hcs]
    by_cases hj : j = s.cs.length
    · subst hj; simp
    · rw [if_neg hj]
      by_cases hlt : j < s.cs.length
      · rw [List.getElem?_append_left hlt]
      · rw [List.getElem?_append_right (by omega), List.getElem?_eq_none (by omega : s.cs.length ≤ j), List.getElem?_eq_none (by simp; omega)]
  obtain ⟨g1, g2, g3, g4, g5, g6, g7⟩ := h
  constructor
  · intro j id
    have g := g1 j id
    simp only [cdn] at g ⊢
    rw [hget, e2]
    by_cases hj : j = s.cs.length
    · subst hj
      rw [List.getElem?_eq_none (Nat.le_refl _)] at g; simp only [Option.bind_none] at g
      simp only [if_true, Option.bind_some, h1]
      exact ⟨g.1, fun _ => g.2 (fun d hd => by cases hd)⟩
    · rw [if_neg hj]; exact g
  · intro j id
    have g := g2 j id
    simp only [odn] at g ⊢
    rw [hget, e2]
    by_cases hj : j = s.cs.length
    · subst hj
      rw [List.getElem?_eq_none (Nat.le_refl _)] at g; simp only [Option.bind_none] at g
      simp only [if_true, Option.bind_some, h2]
      simpa using g
    · rw [if_neg hj]; exact g
  · intro j d hj
    rw [hget] at hj
    split at hj
    · cases hj; intro hx; exact absurd h1 hx
    · exact g3 j d hj
  · rw [e2, e3, e4]; exact g4
  · rw [e2, e5]; exact g5
  · rw [e5, e6, e7]; exact g6
  · rw [e7, e8]; exact g7

theorem L.rx {g : Cfg} {s t : U} {a len : Nat} (h : L false s) (e : Dgram.rx g s a len = some t) : L false t := by
  unfold Dgram.rx at e
  obtain ⟨u, hu, e⟩ := bind_some' e
  have h := h.ref hu
  split at e
  · refine L.deref ?_ e
    unfold fdReadDisable
    exact L.check (h.same (by constructor <;> rfl))
  · split at e
    · exact h.deref e
    · dsimp only at e
      split at e
      · exact L.gotNdata (h.same (by constructor <;> rfl)) e
      · split at e
        · exact L.outEnable (h.same (by constructor <;> rfl)) e
        · cases e
          have h1 : L false { u with pend := len, cur := a, cs := u.cs ++ [{ C.new a with st := .opened, inRead := true }], udpns := u.udpns ++ [u.cs.length], cnt := u.cnt + 1, rdCnt := u.rdCnt + 1, owner := some u.cs.length } :=
            L.add (c := { C.new a with st := .opened, inRead := true }) h rfl rfl rfl rfl rfl rfl rfl rfl rfl rfl rfl
          have h2 := h1.say (e := .new u.cs.length a) (.inl ⟨_, _, rfl⟩)
          obtain ⟨g1, g2, g3, g4, g5, g6, g7⟩ := h2
          refine ⟨g1, g2, g3, g4, g5, ?_, ?_⟩
          · intro _; exact .inr rfl
          · intro _ _; simp [U.call, U.say, T.isNew]

theorem L.tx {w : Bool} {s t : U} (h : L w s) (e : Dgram.tx s = some t) : L w t := by
  unfold Dgram.tx at e
  obtain ⟨u, hu, e⟩ := bind_some' e
  have h := h.ref hu
  split at e
  · exact h.afterWr e
  · obtain ⟨c, hg, e⟩ := bind_some' e
    obtain ⟨hc, hgo⟩ := get_some.mp hg
    split at e
    · exact (h.put hc).afterWr e
    · cases e; exact (h.put hc).call

theorem L.wrCont {w : Bool} {s t : U} {i : Nat} {err : Bool} (h : L w s) (e : Dgram.wrCont s i err = some t) : L w t := by
  unfold Dgram.wrCont at e
  obtain ⟨c, hg, e⟩ := bind_some' e
  obtain ⟨hc, hgo⟩ := get_some.mp hg
  split at e
  · cases e; exact (h.put hc).call
  · dsimp only at e
    split at e
    · rename_i hst
      have hp := get_some.mpr ⟨put_self (c' := { c with wrPend := if err then c.wrPend else false, inWrite := false }) hc, hgo⟩
      exact L.finishClose (h.put hc) hp hst e
    · exact (h.put hc).afterWr e

theorem L.cdopRest {w : Bool} {s t : U} {i : Nat} (h : L w s) (e : Dgram.cdopRest s i = some t) : L w t := by
  unfold Dgram.cdopRest at e
  obtain ⟨c, hg, e⟩ := bind_some' e
  split at e
  · rename_i hst
    exact h.finishClose hg hst e
  · split at e
    · obtain ⟨u, hu, e⟩ := bind_some' e
      exact (h.finishFree hu).deref e
    · exact h.deref e

theorem L.cdop {w : Bool} {s t : U} {i : Nat} (h : L w s) (e : Dgram.cdop s i = some t) : L w t := by
  unfold Dgram.cdop at e
  obtain ⟨c, hg, e⟩ := bind_some' e
  obtain ⟨hc, hgo⟩ := get_some.mp hg
  dsimp only at e
  split at e
  · rename_i hst
    split at e
    · rename_i id hid
      cases e
      have hcd : c.closeDone ≠ none → False := fun hx => by have := h.cd i c hc hx; rw [hst] at this; cases this
      refine L.call ?_
      refine h.updPut (c' := { c with dop := false, st := .opened, inOpenCb := true }) hc [.opened i id] rfl rfl ?_ ?_ (fun x => x) ?_ ?_ ?_ ?_
      · intro j id' hij; simp [hij]
      · intro id'; simp
      · intro id'; simp
      · intro _ id'; simp
      · intro id'; by_cases hh : id = id' <;> simp [hh, hid, hst]
      · intro hx; exact (hcd hx).elim
    · rename_i hid
      have hcd : c.closeDone ≠ none → False := fun hx => by have := h.cd i c hc hx; rw [hst] at this; cases this
      refine L.cdopRest (L.check ?_) e
      refine h.updPut (c' := { c with dop := false, st := .opened }) hc [] rfl (List.append_nil _).symm ?_ ?_ (fun x => x) ?_ ?_ ?_ (fun hx => (hcd hx).elim) <;> simp
  · exact L.cdopRest (h.put hc) e

theorem L.adop {w : Bool} {s t : U} (h : L w s) (e : Dgram.adop s = some t) : L w t := by
  unfold Dgram.adop at e
  have h' : L w { s with dop := false } := h.same (by constructor <;> rfl)
  dsimp only at e
  split at e
  · exact h'.dopRest e
  · obtain ⟨c, hg, e⟩ := bind_some' e
    obtain ⟨hc, hgo⟩ := get_some.mp hg
    split at e
    · split at e
      · cases e; exact (h'.put hc).callRead
      · exact (h'.put hc).dopRest e
    · exact h'.dopRest e

theorem L.startCdop {w : Bool} {s t : U} {i : Nat} (h : L w s) (e : Dgram.startCdop s i = some t) : L w t := by
  unfold Dgram.startCdop at e
  obtain ⟨c, hg, e⟩ := bind_some' e
  obtain ⟨hc, hgo⟩ := get_some.mp hg
  split at e
  · cases e; exact h
  · cases hr : Dgram.ref s with
    | none => rw [hr] at e; cases e
    | some u =>
      rw [hr] at e; cases e
      have hcs : u.cs = s.cs := by unfold Dgram.ref at hr; split at hr <;> cases hr; rfl
      exact (h.ref hr).put (by rw [hcs]; exact hc)

theorem L.opn {w : Bool} {s t : U} {i : Nat} {done : Option Nat} (h : L w s) (e : Dgram.opn s i done = some t) : L w t := by
  unfold Dgram.opn at e
  obtain ⟨c, hg, e⟩ := bind_some' e
  obtain ⟨hc, hgo⟩ := get_some.mp hg
  split at e
  · cases e; exact h
  · rename_i hn
    have hst : c.st = .closed := by
      cases hx : decide (c.st = .closed)
      · exact absurd (.inr (by simpa using hx)) hn
      · simpa using hx
    have hcd : c.closeDone = none := by
      cases hx : c.closeDone with
      | none => rfl
      | some id => have := h.cd i c hc (by simp [hx]); rw [hst] at this; cases this
    have h1 : L w (fdReadDisable { s with udpns := s.udpns ++ [i] }) := by
      unfold fdReadDisable
      exact L.check (h.same (by constructor <;> rfl))
    have hc1 : (fdReadDisable { s with udpns := s.udpns ++ [i] }).cs[i]? = some c := by
      unfold fdReadDisable; rw [(checkRead_sl _).cs]; exact hc
    dsimp only at e
    generalize fdReadDisable { s with udpns := s.udpns ++ [i] } = u at h1 hc1 e
    refine L.startCdop ?_ e
    cases done with
    | none =>
      refine h1.updPut (c' := { c with st := .inOpen, openDone := none }) hc1 [] rfl (List.append_nil _).symm ?_ ?_ (fun x => x) ?_ ?_ ?_ (fun hx => absurd hcd hx) <;> simp
    | some id =>
      refine h1.updPut (c' := { c with st := .inOpen, openDone := some id }) hc1 [.opn i id] rfl rfl ?_ ?_ (fun x => x) ?_ ?_ ?_ (fun hx => absurd hcd hx)
      · intro j id' hij; simp [hij]
      · intro id'; simp
      · intro id'; simp
      · intro _ id'; simp
      · intro id'; by_cases hh : id = id' <;> simp [hh, hst]

theorem fdReadEnable_sl {s t : U} (e : Dgram.fdReadEnable s = some t) : Sl s t := by
  unfold Dgram.fdReadEnable at e
  split at e
  · cases e
  · cases e
    have h := checkRead_sl { s with rdCnt := s.rdCnt - 1 }
    exact ⟨h.cs, h.log, h.inShut, h.shutDone, h.enDone, h.enRun, h.inNew, h.ths⟩

theorem fdWriteDisable_sl {s t : U} (e : Dgram.fdWriteDisable s = some t) : Sl s t := by
  unfold Dgram.fdWriteDisable at e
  split at e
  · cases e
  · cases e; constructor <;> rfl

theorem Sl.trans {s t u : U} (a : Sl s t) (b : Sl t u) : Sl s u :=
  ⟨b.cs.trans a.cs, b.log.trans a.log, b.inShut.trans a.inShut, b.shutDone.trans a.shutDone, b.enDone.trans a.enDone, b.enRun.trans a.enRun, b.inNew.trans a.inNew,
    b.ths.trans a.ths⟩

/-- `udpn_start_close`; `es` is what was added to the log for it. -/
theorem L.startClose {w : Bool} {s t : U} {i : Nat} {done : Option Nat} {c : C} {es : List Ev} (h : L w s) (hg : s.get i = some c) (hst : c.st ≠ .inClose)
    (hes : (done = none ∧ es = []) ∨ ∃ id, done = some id ∧ es = [.close i id]) (e : Dgram.startClose { s with log := s.log ++ es } i done = some t) : L w t := by
  obtain ⟨hc, hgo⟩ := get_some.mp hg
  have hcd : c.closeDone = none := by
    cases hx : c.closeDone with
    | none => rfl
    | some id => exact absurd (h.cd i c hc (by simp [hx])) hst
  unfold Dgram.startClose at e
  rw [show U.get { s with log := s.log ++ es } i = some c from hg, Option.bind_some] at e
  dsimp only at e
  obtain ⟨u, hu, e⟩ := bind_some' e
  obtain ⟨v, hv, e⟩ := bind_some' e
  have m0 : Sl { s with log := s.log ++ es } (if s.owner = some i then { s with log := s.log ++ es, owner := none, pend := 0 } else { s with log := s.log ++ es }) := by
    split <;> constructor <;> rfl
  have m1 : Sl { s with log := s.log ++ es } u := by
    split at hu
    · cases hu; exact m0
    · exact m0.trans (fdReadEnable_sl hu)
  have m2 : Sl { s with log := s.log ++ es } v := by
    split at hv
    · exact m1.trans (fdWriteDisable_sl hv)
    · cases hv; exact m1
  split at e
  · cases e
  · refine L.startCdop ?_ e
    refine h.updPut hc es (by show v.cs.set i _ = s.cs.set i _; rw [m2.cs]) m2.log ?_ ?_ (c' := { c with inRead := if s.owner = some i ∧ c.defRead then false else c.inRead, defRead := if s.owner = some i then false else c.defRead, closeDone := done, rd := false, wr := false, st := .inClose }) (fun x => x) ?_ ?_ ?_ (fun _ => rfl)
      m2.inShut m2.shutDone m2.enDone m2.enRun m2.inNew m2.ths
    · intro j id hij
      rcases hes with ⟨_, rfl⟩ | ⟨id', _, rfl⟩ <;> simp [hij]
    · intro id
      rcases hes with ⟨_, rfl⟩ | ⟨id', _, rfl⟩ <;> simp
    · intro id
      rcases hes with ⟨rfl, rfl⟩ | ⟨id', rfl, rfl⟩
      · simp
      · by_cases hh : id' = id <;> simp [hh]
    · intro _ id
      rcases hes with ⟨rfl, rfl⟩ | ⟨id', rfl, rfl⟩
      · simp [hcd]
      · by_cases hh : id' = id <;> simp [hh, hcd]
    · intro id
      rcases hes with ⟨_, rfl⟩ | ⟨id', _, rfl⟩ <;> simp

theorem L.close {w : Bool} {s t : U} {i : Nat} {done : Option Nat} (h : L w s) (e : Dgram.close s i done = some t) : L w t := by
  unfold Dgram.close at e
  obtain ⟨c, hg, e⟩ := bind_some' e
  split at e
  · cases e; exact h
  · rename_i hn
    have hst : c.st ≠ .inClose := fun x => hn (.inr x)
    cases done with
    | none =>
      refine h.startClose (es := []) hg hst (.inl ⟨rfl, rfl⟩) ?_
      rw [List.append_nil]; exact e
    | some id => exact h.startClose (es := [.close i id]) hg hst (.inr ⟨id, rfl, rfl⟩) e

theorem L.free {w : Bool} {s t : U} {i : Nat} (h : L w s) (e : Dgram.free s i = some t) : L w t := by
  unfold Dgram.free at e
  obtain ⟨u, hu, e⟩ := bind_some' e
  have h := h.ref hu
  obtain ⟨c, hg, e⟩ := bind_some' e
  obtain ⟨hc, hgo⟩ := get_some.mp hg
  dsimp only at e
  obtain ⟨v, hv, e⟩ := bind_some' e
  refine L.deref ?_ e
  have h1 : L w (u.put i { c with freed := true }) := by
    refine h.updPut (c' := { c with freed := true }) hc [] rfl (List.append_nil _).symm ?_ ?_ ?_ ?_ ?_ ?_ ?_
    · simp
    · simp
    · intro hx; cases hx
    · simp
    · intro hx; cases hx
    · simp
    · exact h.cd i c hc
  have h2 := h1.say (e := .free i) (.inr (.inr ⟨_, rfl⟩))
  have hp : ((u.put i { c with freed := true }).say (.free i)).cs[i]? = some { c with freed := true } := put_self hc
  split at hv
  · cases hv
    rename_i hst
    refine h2.updPut (c' := { c with freed := true, closeDone := none }) hp [] rfl (List.append_nil _).symm ?_ ?_ ?_ ?_ ?_ ?_ ?_
    · simp
    · simp
    · intro hx; cases hx
    · simp
    · intro hx; cases hx
    · simp
    · intro hx; exact absurd rfl hx
  · rename_i hst
    split at hv
    · refine h2.startClose (es := []) (get_some.mpr ⟨hp, hgo⟩) hst (.inl ⟨rfl, rfl⟩) ?_
      rw [List.append_nil]; exact hv
    · split at hv
      · exact h2.finishFree hv
      · cases hv; exact h2

theorem L.setRead {w : Bool} {s t : U} {i : Nat} {b : Bool} (h : L w s) (e : Dgram.setRead s i b = some t) : L w t := by
  unfold Dgram.setRead at e
  obtain ⟨c, hg, e⟩ := bind_some' e
  obtain ⟨hc, hgo⟩ := get_some.mp hg
  split at e
  · cases e; exact h
  · split at e
    · cases e
    · have h' : L w { s with rdCnt := if b = true then s.rdCnt - 1 else s.rdCnt + 1 } := h.same (by constructor <;> rfl)
      dsimp only at e
      split at e
      · cases e; exact h'.put hc
      · split at e
        · exact L.startDop (h'.put hc) e
        · cases e; exact (h'.put hc).check

theorem L.setWrite {w : Bool} {s t : U} {i : Nat} {b : Bool} (h : L w s) (e : Dgram.setWrite s i b = some t) : L w t := by
  unfold Dgram.setWrite at e
  obtain ⟨c, hg, e⟩ := bind_some' e
  obtain ⟨hc, hgo⟩ := get_some.mp hg
  split at e
  · cases e; exact h
  · have h' : L w (s.put i { c with wr := b }) := h.put hc
    dsimp only at e
    split at e
    · cases e; exact h'
    · split at e
      · cases e; exact h'.same (by constructor <;> rfl)
      · exact h'.fdWriteDisable e

theorem L.shutdown {w : Bool} {s t : U} {done : Option Nat} (h : L w s) (e : Dgram.shutdown s done = some t) : L w t := by
  unfold Dgram.shutdown at e
  split at e
  · rename_i hn
    have hs : s.inShut = false := by simpa using hn.1
    cases done with
    | none =>
      have key : L w { s with enabled := false, inShut := true, closed := true, shutDone := none } := by
        refine h.upd [] rfl (List.append_nil _).symm (by simp) ?_ (fun _ => rfl) h.er h.nn
        intro id; simp [hs]
      dsimp only at e
      split at e
      · cases e; exact key
      · exact key.startDop e
    | some id =>
      have key : L w (U.say { s with enabled := false, inShut := true, closed := true, shutDone := some id } (.shut id)) := by
        refine h.upd [.shut id] rfl rfl (by simp) ?_ (fun id' => by simp; rfl) h.er h.nn
        intro id'
        by_cases hh : id = id' <;> simp [hh, hs, U.say]
      dsimp only at e
      split at e
      · cases e; exact key
      · exact key.startDop e
  · cases e; exact h

/-- An enable is requested. -/
theorem L.enReq {w : Bool} {s v : U} {done : Option Nat} {es : List Ev} (h : L w s) (hd : s.enDone = none)
    (hes : (done = none ∧ es = []) ∨ ∃ id, done = some id ∧ es = [.en id]) (hv : v.enRun = true ∨ v.inNew = true) (e1 : v.cs = s.cs := by rfl) (e2 : v.log = s.log ++ es := by rfl)
    (e3 : v.inShut = s.inShut := by rfl) (e4 : v.shutDone = s.shutDone := by rfl) (e5 : v.enDone = done := by rfl) (e7 : v.inNew = s.inNew := by rfl)
    (e8 : v.ths = s.ths := by rfl) : L w v := by
  refine h.upd es e1 e2 ?_ ?_ ?_ (fun _ => hv) ?_
  · intro i id
    rcases hes with ⟨_, rfl⟩ | ⟨id', _, rfl⟩ <;> simp
  · intro id
    rw [e3, e4]
    rcases hes with ⟨_, rfl⟩ | ⟨id', _, rfl⟩ <;> simp
  · intro id
    rw [e5, hd]
    rcases hes with ⟨rfl, rfl⟩ | ⟨id', rfl, rfl⟩
    · simp
    · by_cases hh : id' = id <;> simp [hh]
  · rw [e7, e8]; exact h.nn

theorem L.setEnable {w : Bool} {s t : U} {b : Bool} {done : Option Nat} (h : L w s) (e : Dgram.setEnable s b done = some t) : L w t := by
  unfold Dgram.setEnable at e
  split at e
  · cases e; exact h
  · rename_i hn
    have hd : s.enDone = none := by simpa using hn
    cases done with
    | none =>
      dsimp only at e
      split at e
      · rename_i hin
        cases e
        exact h.enReq (es := []) hd (.inl ⟨rfl, rfl⟩) (.inr hin) rfl (List.append_nil _).symm
      · unfold Dgram.ref at e
        split at e
        · cases e
        · simp only [Option.map_some, Option.some.injEq] at e
          split at e
          · rename_i hr
            subst e
            exact h.enReq (es := []) hd (.inl ⟨rfl, rfl⟩) (.inl hr) rfl (List.append_nil _).symm
          · subst e
            exact h.enReq (es := []) hd (.inl ⟨rfl, rfl⟩) (.inl rfl) rfl (List.append_nil _).symm
    | some id =>
      dsimp only at e
      split at e
      · rename_i hin
        cases e
        exact h.enReq hd (.inr ⟨id, rfl, rfl⟩) (.inr hin)
      · unfold Dgram.ref at e
        split at e
        · cases e
        · simp only [Option.map_some, Option.some.injEq] at e
          split at e
          · rename_i hr
            subst e
            exact h.enReq hd (.inr ⟨id, rfl, rfl⟩) (.inl hr)
          · subst e
            exact h.enReq hd (.inr ⟨id, rfl, rfl⟩) (.inl rfl)

theorem L.enOp {w : Bool} {s t : U} (h : L w s) (e : Dgram.enOp s = some t) : L w t := by
  unfold Dgram.enOp at e
  dsimp only at e
  split at e
  · rename_i id hd
    cases e
    exact L.call (h.enable (w' := w) (u := U.say { s with enRun := false, enDone := none } (.enCb id)) hd rfl rfl rfl rfl rfl h.nn)
  · rename_i hd
    refine L.deref ?_ e
    obtain ⟨g1, g2, g3, g4, g5, g6, g7⟩ := h
    exact ⟨g1, g2, g3, g4, g5, fun hx => absurd hd hx, g7⟩

theorem L.accFree {w : Bool} {s t : U} (h : L w s) (e : Dgram.accFree s = some t) : L w t := by
  unfold Dgram.accFree at e
  split at e
  · cases e
  · obtain ⟨u, hu, e⟩ := bind_some' e
    obtain ⟨v, hv, e⟩ := bind_some' e
    refine L.deref (L.checkFinish ?_ hv) e
    exact (h.ref hu).same (by constructor <;> rfl)

theorem L.strTo {w : Bool} {s t : U} {a : Nat} (h : L w s) (e : Dgram.strTo s a = some t) : L w t := by
  unfold Dgram.strTo at e
  split at e
  · cases e; exact h
  · refine L.startCdop ?_ e
    exact L.add (c := { C.new a with client := true }) h rfl rfl rfl rfl rfl rfl rfl rfl rfl rfl rfl

theorem L.cont {s t : U} {k : Nat} {th : T} {err : Bool} {count : Nat} (h : L false s) (hk : s.ths[k]? = some th)
    (e : Dgram.cont { s with ths := s.ths.eraseIdx k } th err count = some t) : L false t := by
  have h1 : L true { s with ths := s.ths.eraseIdx k } := by
    obtain ⟨g1, g2, g3, g4, g5, g6, g7⟩ := h
    exact ⟨g1, g2, g3, g4, g5, g6, by simp⟩
  have h2 : th.isNew = false → L false { s with ths := s.ths.eraseIdx k } := by
    intro hth
    obtain ⟨g1, g2, g3, g4, g5, g6, g7⟩ := h
    refine ⟨g1, g2, g3, g4, g5, g6, ?_⟩
    intro hw hn
    have := g7 hw hn
    have := countP_erase (p := T.isNew) hk
    simp only [hth] at this
    dsimp only; simp at this; omega
  unfold Dgram.cont at e
  cases th with
  | new i =>
    obtain ⟨c, hg, e⟩ := bind_some' e
    obtain ⟨hc, hgo⟩ := get_some.mp hg
    exact L.newCont (h1.put hc) e
  | newEn i => exact h1.newCont e
  | read i rh => exact (h2 rfl).readCont e
  | openCb i =>
    obtain ⟨c, hg, e⟩ := bind_some' e
    obtain ⟨hc, hgo⟩ := get_some.mp hg
    exact L.cdopRest ((h2 rfl).put hc).check e
  | closeCb i ctx =>
    obtain ⟨c, hg, e⟩ := bind_some' e
    obtain ⟨hc, hgo⟩ := get_some.mp hg
    obtain ⟨u, hu, e⟩ := bind_some' e
    exact (((h2 rfl).put hc).finishClose2 hu).fin e
  | shutRh i =>
    obtain ⟨c, hg, e⟩ := bind_some' e
    obtain ⟨hc, hgo⟩ := get_some.mp hg
    obtain ⟨u, hu, e⟩ := bind_some' e
    exact (((h2 rfl).put hc).checkFinish hu).outEnable e
  | shutDop =>
    obtain ⟨u, hu, e⟩ := bind_some' e
    exact ((h2 rfl).checkFinish hu).dopEnd e
  | wr i => exact (h2 rfl).wrCont e
  | en => exact (h2 rfl).deref e

theorem L.step {g : Cfg} {s t : U} {op : Op} (h : L false s) (e : Dgram.step g s op = some t) : L false t := by
  unfold Dgram.step at e
  split at e
  · cases e
  · cases op with
    | rx late a len => exact h.rx e
    | tx late => exact h.tx e
    | cdop i => exact h.cdop e
    | adop => exact h.adop e
    | enOp => exact h.enOp e
    | cleared => exact L.deref (h.same (by constructor <;> rfl)) e
    | cont k err count =>
      obtain ⟨th, hk, e⟩ := bind_some' e
      exact h.cont hk e
    | opn i done => exact h.opn e
    | close i done => exact h.close e
    | free i => exact h.free e
    | setRead i b => exact h.setRead e
    | setWrite i b => exact h.setWrite e
    | startup => cases e; exact h.same (by constructor <;> rfl)
    | shutdown done => exact h.shutdown e
    | setEnable b done => exact h.setEnable e
    | accFree => exact h.accFree e
    | strTo a => exact h.strTo e

theorem L.reach {g : Cfg} {P : U → Op → Prop} {s : U} (h : Reach g P s) : L false s := by
  induction h with
  | acc => constructor <;> simp [initAcc, cdn, odn]
  | client a =>
    constructor
    · intro i id; cases i <;> simp [initClient, initAcc, cdn, C.new]
    · intro i id; cases i <;> simp [initClient, initAcc, odn, C.new]
    · intro i c hc
      cases i <;> simp [initClient, initAcc] at hc
      subst hc; simp [C.new]
    all_goals simp [initClient, initAcc]
  | step op hr hcan hp e ih => exact ih.step e

end Gensio.Dgram
