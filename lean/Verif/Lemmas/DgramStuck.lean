import Verif.Lemmas.DgramLog

/-! States of datagram accepters that are never left: after a shutdown, and with reading stopped. -/
set_option linter.unusedSimpArgs false
namespace Gensio.Dgram

/-- Whether an event is a new connection. -/
def Ev.isNew : Ev → Bool
  | .new _ _ => true
  | _ => false

/-- A closed accepter that has told of `n` connections. -/
def D (n : Nat) (s : U) : Prop := s.closed = true ∧ s.log.countP Ev.isNew = n

theorem D.say {n : Nat} {s : U} {e : Ev} (h : D n s) (he : e.isNew = false) : D n (s.say e) :=
  ⟨h.1, by show (s.log ++ [e]).countP Ev.isNew = n; rw [List.countP_append]; simp [he]; exact h.2⟩

theorem D.check {n : Nat} {s : U} (h : D n s) : D n (checkRead s) := by
  unfold checkRead
  split
  · exact h
  · split <;> exact h

theorem D.ref {n : Nat} {s t : U} (h : D n s) (e : Dgram.ref s = some t) : D n t := by
  unfold Dgram.ref at e
  split at e <;> cases e
  exact h

theorem D.deref {n : Nat} {s t : U} (h : D n s) (e : Dgram.deref s = some t) : D n t := by
  unfold Dgram.deref at e
  split at e
  · cases e
  · split at e <;> cases e <;> exact h

theorem D.startDop {n : Nat} {s t : U} (h : D n s) (e : Dgram.startDop s = some t) : D n t := by
  unfold Dgram.startDop at e
  split at e
  · cases e; exact h
  · cases hr : Dgram.ref s with
    | none => rw [hr] at e; cases e
    | some u => have h' := h.ref hr; rw [hr] at e; cases e; exact h'

theorem D.fdReadEnable {n : Nat} {s t : U} (h : D n s) (e : Dgram.fdReadEnable s = some t) : D n t := by
  unfold Dgram.fdReadEnable at e
  split at e <;> cases e
  exact D.check h

theorem D.fdWriteDisable {n : Nat} {s t : U} (h : D n s) (e : Dgram.fdWriteDisable s = some t) : D n t := by
  unfold Dgram.fdWriteDisable at e
  split at e <;> cases e
  exact h

theorem D.checkFinish {n : Nat} {s t : U} (h : D n s) (e : Dgram.checkFinish s = some t) : D n t := by
  unfold Dgram.checkFinish at e
  split at e
  · cases e; exact h
  · split at e <;> cases e
    exact h

theorem D.finishFree {n : Nat} {s t : U} {i : Nat} (h : D n s) (e : Dgram.finishFree s i = some t) : D n t := by
  unfold Dgram.finishFree at e
  obtain ⟨c, hg, e⟩ := bind_some' e
  split at e
  · cases e
  · refine D.checkFinish ?_ e; exact h

theorem D.outEnable {n : Nat} {s t : U} (h : D n s) (e : Dgram.outEnable s = some t) : D n t := by
  unfold Dgram.outEnable at e
  split at e
  · obtain ⟨u, hu, e⟩ := bind_some' e
    refine D.deref (D.fdReadEnable ?_ hu) e; exact h
  · exact h.deref e

theorem D.afterWr {n : Nat} {s t : U} (h : D n s) (e : Dgram.afterWr s = some t) : D n t := by
  unfold Dgram.afterWr at e
  refine D.deref ?_ e
  split <;> exact h

theorem D.fin {n : Nat} {s t : U} {ctx : Ctx} (h : D n s) (e : Dgram.fin ctx s = some t) : D n t := by
  cases ctx
  · exact h.outEnable e
  · exact h.deref e
  · exact h.afterWr e

theorem D.finishClose2 {n : Nat} {s t : U} {i : Nat} (h : D n s) (e : Dgram.finishClose2 s i = some t) : D n t := by
  unfold Dgram.finishClose2 at e
  obtain ⟨c, hg, e⟩ := bind_some' e
  have h' : D n (if s.owner = some i then { s with owner := none, pend := 0 } else s) := by split <;> exact h
  dsimp only at e
  split at e
  · exact h'.finishFree e
  · cases e; exact h'

theorem D.finishClose {n : Nat} {s t : U} {i : Nat} {ctx : Ctx} (h : D n s) (e : Dgram.finishClose s i ctx = some t) : D n t := by
  unfold Dgram.finishClose at e
  obtain ⟨c, hg, e⟩ := bind_some' e
  split at e
  · exact h.fin e
  · split at e
    · cases e
      exact D.say (s := s.put i _) h rfl
    · obtain ⟨u, hu, e⟩ := bind_some' e
      exact D.fin (D.finishClose2 (s := s.put i _) h hu) e

theorem D.afterRead {n : Nat} {s t : U} {i : Nat} (h : D n s) (e : Dgram.afterRead s i = some t) : D n t := by
  unfold Dgram.afterRead at e
  obtain ⟨c, hg, e⟩ := bind_some' e
  split at e
  · exact h.finishClose e
  · split at e
    · split at e
      · cases e; exact D.say (s := U.put { s with inShut := false } i _) h rfl
      · obtain ⟨u, hu, e⟩ := bind_some' e
        exact D.outEnable (D.checkFinish (s := U.put { s with inShut := false } i _) h hu) e
    · obtain ⟨u, hu, e⟩ := bind_some' e
      exact (h.checkFinish hu).outEnable e

theorem D.callRead {n : Nat} {s : U} {i : Nat} {rh : Bool} (h : D n s) : D n (Dgram.callRead s i rh) := D.say h rfl

theorem D.gotNdata {n : Nat} {s t : U} {i : Nat} (h : D n s) (e : Dgram.gotNdata s i = some t) : D n t := by
  unfold Dgram.gotNdata at e
  obtain ⟨c, hg, e⟩ := bind_some' e
  split at e
  · cases e; exact D.callRead (s := s.put i _) h
  · exact h.afterRead e

theorem D.dopEnd {n : Nat} {s t : U} (h : D n s) (e : Dgram.dopEnd s = some t) : D n t := by
  unfold Dgram.dopEnd at e
  refine D.deref ?_ e
  split
  · exact h.check
  · exact h

theorem D.dopRest {n : Nat} {s t : U} (h : D n s) (e : Dgram.dopRest s = some t) : D n t := by
  unfold Dgram.dopRest at e
  split at e
  · split at e
    · cases e; exact D.say (s := { s with inShut := false }) h rfl
    · obtain ⟨u, hu, e⟩ := bind_some' e
      exact D.dopEnd (D.checkFinish (s := { s with inShut := false }) h hu) e
  · exact h.dopEnd e

theorem D.readCont {n : Nat} {s t : U} {i : Nat} {rh err : Bool} {count : Nat} (h : D n s) (e : Dgram.readCont s i rh err count = some t) : D n t := by
  unfold Dgram.readCont at e
  obtain ⟨c, hg, e⟩ := bind_some' e
  have out : ∀ u : U, D n u →
      (if rh then Dgram.afterRead (checkRead (u.put i { c with inRead := false })) i else Dgram.dopRest (checkRead (u.put i { c with inRead := false }))) = some t →
      D n t := by
    intro u hu e
    have h' := D.check (s := u.put i { c with inRead := false }) hu
    split at e
    · exact h'.afterRead e
    · exact h'.dopRest e
  dsimp only at e
  split at e
  · exact out _ h e
  · split at e
    · exact out _ h e
    · split at e
      · split at e
        · cases e; exact D.callRead (s := { s with pend := s.pend - count }) h
        · exact out { s with pend := s.pend - count } h e
      · exact out { s with owner := none, pend := 0 } h e

theorem D.newCont {n : Nat} {s t : U} {i : Nat} (h : D n s) (e : Dgram.newCont s i = some t) : D n t := by
  unfold Dgram.newCont at e
  split at e
  · cases e; exact D.say (s := { s with enDone := none }) h rfl
  · obtain ⟨c, hg, e⟩ := bind_some' e
    dsimp only at e
    split at e
    · exact D.gotNdata (s := { s with inNew := false }) h e
    · exact D.afterRead (s := { s with inNew := false, pend := 0 }) h e

theorem D.rx {n : Nat} {g : Cfg} {s t : U} {a len : Nat} (h : D n s) (e : Dgram.rx g s a len = some t) : D n t := by
  unfold Dgram.rx at e
  obtain ⟨u, hu, e⟩ := bind_some' e
  have h := h.ref hu
  split at e
  · refine D.deref ?_ e
    unfold fdReadDisable
    exact D.check h
  · split at e
    · exact h.deref e
    · dsimp only at e
      split at e
      · refine D.gotNdata ?_ e; exact h
      · rw [if_pos (.inl h.1)] at e
        refine D.outEnable ?_ e; exact h

theorem D.tx {n : Nat} {s t : U} (h : D n s) (e : Dgram.tx s = some t) : D n t := by
  unfold Dgram.tx at e
  obtain ⟨u, hu, e⟩ := bind_some' e
  have h := h.ref hu
  split at e
  · exact h.afterWr e
  · obtain ⟨c, hg, e⟩ := bind_some' e
    split at e
    · exact D.afterWr (s := u.put _ _) h e
    · cases e; exact h

theorem D.wrCont {n : Nat} {s t : U} {i : Nat} {err : Bool} (h : D n s) (e : Dgram.wrCont s i err = some t) : D n t := by
  unfold Dgram.wrCont at e
  obtain ⟨c, hg, e⟩ := bind_some' e
  split at e
  · cases e; exact h
  · dsimp only at e
    split at e
    · exact D.finishClose (s := s.put _ _) h e
    · exact D.afterWr (s := s.put _ _) h e

theorem D.cdopRest {n : Nat} {s t : U} {i : Nat} (h : D n s) (e : Dgram.cdopRest s i = some t) : D n t := by
  unfold Dgram.cdopRest at e
  obtain ⟨c, hg, e⟩ := bind_some' e
  split at e
  · exact h.finishClose e
  · split at e
    · obtain ⟨u, hu, e⟩ := bind_some' e
      exact (h.finishFree hu).deref e
    · exact h.deref e

theorem D.cdop {n : Nat} {s t : U} {i : Nat} (h : D n s) (e : Dgram.cdop s i = some t) : D n t := by
  unfold Dgram.cdop at e
  obtain ⟨c, hg, e⟩ := bind_some' e
  dsimp only at e
  split at e
  · split at e
    · cases e; exact D.say (s := s.put i _) h rfl
    · exact D.cdopRest (D.check (s := s.put i _) h) e
  · exact D.cdopRest (s := s.put i _) h e

theorem D.adop {n : Nat} {s t : U} (h : D n s) (e : Dgram.adop s = some t) : D n t := by
  unfold Dgram.adop at e
  dsimp only at e
  split at e
  · exact D.dopRest (s := { s with dop := false }) h e
  · obtain ⟨c, hg, e⟩ := bind_some' e
    split at e
    · split at e
      · cases e; exact D.callRead (s := U.put { s with dop := false } _ _) h
      · exact D.dopRest (s := U.put { s with dop := false } _ _) h e
    · exact D.dopRest (s := { s with dop := false }) h e

theorem D.startCdop {n : Nat} {s t : U} {i : Nat} (h : D n s) (e : Dgram.startCdop s i = some t) : D n t := by
  unfold Dgram.startCdop at e
  obtain ⟨c, hg, e⟩ := bind_some' e
  split at e
  · cases e; exact h
  · cases hr : Dgram.ref s with
    | none => rw [hr] at e; cases e
    | some u => have h' := h.ref hr; rw [hr] at e; cases e; exact h'

theorem D.opn {n : Nat} {s t : U} {i : Nat} {done : Option Nat} (h : D n s) (e : Dgram.opn s i done = some t) : D n t := by
  unfold Dgram.opn at e
  obtain ⟨c, hg, e⟩ := bind_some' e
  split at e
  · cases e; exact h
  · have h1 : D n (fdReadDisable { s with udpns := s.udpns ++ [i] }) := D.check h
    dsimp only at e
    refine D.startCdop ?_ e
    cases done with
    | none => exact h1
    | some id => exact D.say (s := U.put _ i _) h1 rfl

theorem D.startClose {n : Nat} {s t : U} {i : Nat} {done : Option Nat} (h : D n s) (e : Dgram.startClose s i done = some t) : D n t := by
  unfold Dgram.startClose at e
  obtain ⟨c, hg, e⟩ := bind_some' e
  dsimp only at e
  obtain ⟨u, hu, e⟩ := bind_some' e
  obtain ⟨v, hv, e⟩ := bind_some' e
  have m0 : D n (if s.owner = some i then { s with owner := none, pend := 0 } else s) := by split <;> exact h
  have m1 : D n u := by
    split at hu
    · cases hu; exact m0
    · exact m0.fdReadEnable hu
  have m2 : D n v := by
    split at hv
    · exact m1.fdWriteDisable hv
    · cases hv; exact m1
  split at e
  · cases e
  · exact D.startCdop (s := U.put { v with udpns := v.udpns.erase i } i _) m2 e

theorem D.close {n : Nat} {s t : U} {i : Nat} {done : Option Nat} (h : D n s) (e : Dgram.close s i done = some t) : D n t := by
  unfold Dgram.close at e
  obtain ⟨c, hg, e⟩ := bind_some' e
  split at e
  · cases e; exact h
  · cases done with
    | none => exact h.startClose e
    | some id => exact (h.say (e := .close i id) rfl).startClose e

theorem D.free {n : Nat} {s t : U} {i : Nat} (h : D n s) (e : Dgram.free s i = some t) : D n t := by
  unfold Dgram.free at e
  obtain ⟨u, hu, e⟩ := bind_some' e
  have h := h.ref hu
  obtain ⟨c, hg, e⟩ := bind_some' e
  dsimp only at e
  obtain ⟨v, hv, e⟩ := bind_some' e
  refine D.deref ?_ e
  have h2 : D n ((u.put i { c with freed := true }).say (.free i)) := D.say (s := u.put i _) h rfl
  split at hv
  · cases hv; exact h2
  · split at hv
    · exact h2.startClose hv
    · split at hv
      · exact h2.finishFree hv
      · cases hv; exact h2

theorem D.setRead {n : Nat} {s t : U} {i : Nat} {b : Bool} (h : D n s) (e : Dgram.setRead s i b = some t) : D n t := by
  unfold Dgram.setRead at e
  obtain ⟨c, hg, e⟩ := bind_some' e
  split at e
  · cases e; exact h
  · split at e
    · cases e
    · dsimp only at e
      split at e
      · cases e; exact h
      · split at e
        · exact D.startDop (s := U.put { s with rdCnt := if b = true then s.rdCnt - 1 else s.rdCnt + 1 } i _) h e
        · cases e; exact D.check (s := U.put { s with rdCnt := if b = true then s.rdCnt - 1 else s.rdCnt + 1 } i _) h

theorem D.setWrite {n : Nat} {s t : U} {i : Nat} {b : Bool} (h : D n s) (e : Dgram.setWrite s i b = some t) : D n t := by
  unfold Dgram.setWrite at e
  obtain ⟨c, hg, e⟩ := bind_some' e
  split at e
  · cases e; exact h
  · dsimp only at e
    split at e
    · cases e; exact h
    · split at e
      · cases e; exact h
      · exact D.fdWriteDisable (s := s.put i _) h e

theorem D.setEnable {n : Nat} {s t : U} {b : Bool} {done : Option Nat} (h : D n s) (e : Dgram.setEnable s b done = some t) : D n t := by
  unfold Dgram.setEnable at e
  split at e
  · cases e; exact h
  · have key : ∀ u : U, D n u → (if u.inNew then some u else (Dgram.ref u).map fun s => if s.enRun then { s with lost := s.lost + 1 } else { s with enRun := true }) = some t → D n t := by
      intro u hu e
      split at e
      · cases e; exact hu
      · cases hr : Dgram.ref u with
        | none => rw [hr] at e; cases e
        | some v =>
          rw [hr] at e
          simp only [Option.map_some, Option.some.injEq] at e
          subst e
          have h' := hu.ref hr
          split <;> exact h'
    cases done with
    | none => exact key { s with enabled := b, enDone := none } h e
    | some id => exact key (U.say { s with enabled := b, enDone := some id } (.en id)) (D.say (s := { s with enabled := b, enDone := some id }) h rfl) e

theorem D.enOp {n : Nat} {s t : U} (h : D n s) (e : Dgram.enOp s = some t) : D n t := by
  unfold Dgram.enOp at e
  dsimp only at e
  split at e
  · cases e; exact D.say (s := { s with enRun := false, enDone := none }) h rfl
  · exact D.deref (s := { s with enRun := false }) h e

theorem D.accFree {n : Nat} {s t : U} (h : D n s) (e : Dgram.accFree s = some t) : D n t := by
  unfold Dgram.accFree at e
  split at e
  · cases e
  · obtain ⟨u, hu, e⟩ := bind_some' e
    obtain ⟨v, hv, e⟩ := bind_some' e
    exact D.deref (D.checkFinish (s := { u with enabled := false, closed := true, freed := true }) ⟨rfl, (h.ref hu).2⟩ hv) e

theorem D.strTo {n : Nat} {s t : U} {a : Nat} (h : D n s) (e : Dgram.strTo s a = some t) : D n t := by
  unfold Dgram.strTo at e
  split at e
  · cases e; exact h
  · exact D.startCdop (s := { s with cs := s.cs ++ [{ C.new a with client := true }], cnt := s.cnt + 1 }) h e

theorem D.cont {n : Nat} {s t : U} {th : T} {err : Bool} {count : Nat} (h : D n s) (e : Dgram.cont s th err count = some t) : D n t := by
  unfold Dgram.cont at e
  cases th with
  | new i =>
    obtain ⟨c, hg, e⟩ := bind_some' e
    exact D.newCont (s := s.put i _) h e
  | newEn i => exact h.newCont e
  | read i rh => exact h.readCont e
  | openCb i =>
    obtain ⟨c, hg, e⟩ := bind_some' e
    exact D.cdopRest (D.check (s := s.put i _) h) e
  | closeCb i ctx =>
    obtain ⟨c, hg, e⟩ := bind_some' e
    obtain ⟨u, hu, e⟩ := bind_some' e
    exact D.fin (D.finishClose2 (s := s.put i _) h hu) e
  | shutRh i =>
    obtain ⟨c, hg, e⟩ := bind_some' e
    obtain ⟨u, hu, e⟩ := bind_some' e
    exact D.outEnable (D.checkFinish (s := s.put i _) h hu) e
  | shutDop =>
    obtain ⟨u, hu, e⟩ := bind_some' e
    exact (h.checkFinish hu).dopEnd e
  | wr i => exact h.wrCont e
  | en => exact h.deref e

/-- A closed accepter stays closed and takes no connection, whatever happens. -/
theorem D.step {n : Nat} {g : Cfg} {s t : U} {op : Op} (h : D n s) (e : Dgram.step g s op = some t) : D n t := by
  unfold Dgram.step at e
  split at e
  · cases e
  · cases op with
    | rx late a len => exact h.rx e
    | tx late => exact h.tx e
    | cdop i => exact h.cdop e
    | adop => exact h.adop e
    | enOp => exact h.enOp e
    | cleared => exact D.deref (s := { s with clearing := s.clearing - 1 }) h e
    | cont k err count =>
      obtain ⟨th, hk, e⟩ := bind_some' e
      exact D.cont (s := { s with ths := s.ths.eraseIdx k }) h e
    | opn i done => exact h.opn e
    | close i done => exact h.close e
    | free i => exact h.free e
    | setRead i b => exact h.setRead e
    | setWrite i b => exact h.setWrite e
    | startup => cases e; exact h
    | shutdown done =>
      simp only [Dgram.shutdown] at e
      rw [if_neg (by simp [h.1])] at e
      cases e; exact h
    | setEnable b done => exact h.setEnable e
    | accFree => exact h.accFree e
    | strTo a => exact h.strTo e

/-- One step after the other. -/
theorem exec_inv {g : Cfg} {A : U → Prop} (hA : ∀ s t op, A s → can s op = true → Dgram.step g s op = some t → A t) {s t : U} {ops : List Op} (h : A s)
    (e : exec g s ops = .ok t) : A t := by
  induction ops generalizing s with
  | nil => cases e; exact h
  | cons op ops ih =>
    rw [exec] at e
    split at e
    · rename_i hc
      cases hs : Dgram.step g s op with
      | none => rw [hs] at e; cases e
      | some u => rw [hs] at e; exact ih (hA _ _ _ h hc hs) e
    · cases e

/-- Reading is stopped by the read handler, and no thread is in a read handler. -/
def K (s : U) : Prop := s.rhDis = true ∧ s.rdDis = true ∧ s.armed = false ∧ s.rdCnt ≠ 0 ∧ s.ths.countP T.isRh = 0

theorem K.check {s : U} (h : K s) : K (checkRead s) := by
  unfold checkRead
  rw [if_neg (fun x => h.2.2.2.1 x.2), if_neg (by simp [h.2.1])]
  exact h

theorem K.call {s : U} {t : T} (h : K s) (ht : t.isRh = false) : K (s.call t) := by
  obtain ⟨h1, h2, h3, h4, h5⟩ := h
  refine ⟨h1, h2, h3, h4, ?_⟩
  simp only [U.call, List.countP_cons, ht]; simpa using h5

theorem K.ref {s t : U} (h : K s) (e : Dgram.ref s = some t) : K t := by
  unfold Dgram.ref at e
  split at e <;> cases e
  exact h

theorem K.deref {s t : U} (h : K s) (e : Dgram.deref s = some t) : K t := by
  unfold Dgram.deref at e
  split at e
  · cases e
  · split at e <;> cases e <;> exact h

theorem K.startDop {s t : U} (h : K s) (e : Dgram.startDop s = some t) : K t := by
  unfold Dgram.startDop at e
  split at e
  · cases e; exact h
  · cases hr : Dgram.ref s with
    | none => rw [hr] at e; cases e
    | some u => have h' := h.ref hr; rw [hr] at e; cases e; exact h'

theorem K.fdWriteDisable {s t : U} (h : K s) (e : Dgram.fdWriteDisable s = some t) : K t := by
  unfold Dgram.fdWriteDisable at e
  split at e <;> cases e
  exact h

theorem K.checkFinish {s t : U} (h : K s) (e : Dgram.checkFinish s = some t) : K t := by
  unfold Dgram.checkFinish at e
  split at e
  · cases e; exact h
  · split at e <;> cases e
    exact h

theorem K.finishFree {s t : U} {i : Nat} (h : K s) (e : Dgram.finishFree s i = some t) : K t := by
  unfold Dgram.finishFree at e
  obtain ⟨c, hg, e⟩ := bind_some' e
  split at e
  · cases e
  · refine K.checkFinish ?_ e; exact h

theorem K.afterWr {s t : U} (h : K s) (e : Dgram.afterWr s = some t) : K t := by
  unfold Dgram.afterWr at e
  refine K.deref ?_ e
  split <;> exact h

theorem K.fin {s t : U} {ctx : Ctx} (h : K s) (hc : ctx ≠ .rh) (e : Dgram.fin ctx s = some t) : K t := by
  cases ctx
  · exact absurd rfl hc
  · exact h.deref e
  · exact h.afterWr e

theorem K.finishClose2 {s t : U} {i : Nat} (h : K s) (e : Dgram.finishClose2 s i = some t) : K t := by
  unfold Dgram.finishClose2 at e
  obtain ⟨c, hg, e⟩ := bind_some' e
  have h' : K (if s.owner = some i then { s with owner := none, pend := 0 } else s) := by split <;> exact h
  dsimp only at e
  split at e
  · exact h'.finishFree e
  · cases e; exact h'

theorem K.finishClose {s t : U} {i : Nat} {ctx : Ctx} (h : K s) (hc : ctx ≠ .rh) (e : Dgram.finishClose s i ctx = some t) : K t := by
  unfold Dgram.finishClose at e
  obtain ⟨c, hg, e⟩ := bind_some' e
  split at e
  · exact h.fin hc e
  · split at e
    · cases e
      refine K.call ?_ ?_
      · exact h
      · cases ctx
        · exact absurd rfl hc
        · rfl
        · rfl
    · obtain ⟨u, hu, e⟩ := bind_some' e
      exact K.fin (K.finishClose2 (s := s.put i _) h hu) hc e

theorem K.callRead {s : U} {i : Nat} (h : K s) : K (Dgram.callRead s i false) := K.call (s := s.say _) h rfl

theorem K.dopEnd {s t : U} (h : K s) (e : Dgram.dopEnd s = some t) : K t := by
  unfold Dgram.dopEnd at e
  refine K.deref ?_ e
  split
  · exact h.check
  · exact h

theorem K.dopRest {s t : U} (h : K s) (e : Dgram.dopRest s = some t) : K t := by
  unfold Dgram.dopRest at e
  split at e
  · split at e
    · cases e; refine K.call ?_ rfl; exact h
    · obtain ⟨u, hu, e⟩ := bind_some' e
      exact K.dopEnd (K.checkFinish (s := { s with inShut := false }) h hu) e
  · exact h.dopEnd e

theorem K.readCont {s t : U} {i : Nat} {err : Bool} {count : Nat} (h : K s) (e : Dgram.readCont s i false err count = some t) : K t := by
  unfold Dgram.readCont at e
  obtain ⟨c, hg, e⟩ := bind_some' e
  have out : ∀ u : U, K u → Dgram.dopRest (checkRead (u.put i { c with inRead := false })) = some t → K t := by
    intro u hu e
    exact (K.check (s := u.put i { c with inRead := false }) hu).dopRest e
  dsimp only at e
  simp only [Bool.false_eq_true, if_false] at e
  split at e
  · exact out _ h e
  · split at e
    · exact out _ h e
    · split at e
      · split at e
        · cases e; exact K.callRead (s := { s with pend := s.pend - count }) h
        · exact out { s with pend := s.pend - count } h e
      · exact out { s with owner := none, pend := 0 } h e

theorem K.tx {s t : U} (h : K s) (e : Dgram.tx s = some t) : K t := by
  unfold Dgram.tx at e
  obtain ⟨u, hu, e⟩ := bind_some' e
  have h := h.ref hu
  split at e
  · exact h.afterWr e
  · obtain ⟨c, hg, e⟩ := bind_some' e
    split at e
    · exact K.afterWr (s := u.put _ _) h e
    · cases e; exact K.call (s := u.put _ _) h rfl

theorem K.wrCont {s t : U} {i : Nat} {err : Bool} (h : K s) (e : Dgram.wrCont s i err = some t) : K t := by
  unfold Dgram.wrCont at e
  obtain ⟨c, hg, e⟩ := bind_some' e
  split at e
  · cases e; exact K.call (s := s.put _ _) h rfl
  · dsimp only at e
    split at e
    · exact K.finishClose (s := s.put _ _) h (by simp) e
    · exact K.afterWr (s := s.put _ _) h e

theorem K.cdopRest {s t : U} {i : Nat} (h : K s) (e : Dgram.cdopRest s i = some t) : K t := by
  unfold Dgram.cdopRest at e
  obtain ⟨c, hg, e⟩ := bind_some' e
  split at e
  · exact h.finishClose (by simp) e
  · split at e
    · obtain ⟨u, hu, e⟩ := bind_some' e
      exact (h.finishFree hu).deref e
    · exact h.deref e

theorem K.cdop {s t : U} {i : Nat} (h : K s) (e : Dgram.cdop s i = some t) : K t := by
  unfold Dgram.cdop at e
  obtain ⟨c, hg, e⟩ := bind_some' e
  dsimp only at e
  split at e
  · split at e
    · cases e; refine K.call ?_ rfl; exact h
    · exact K.cdopRest (K.check (s := s.put i _) h) e
  · exact K.cdopRest (s := s.put i _) h e

theorem K.adop {s t : U} (h : K s) (e : Dgram.adop s = some t) : K t := by
  unfold Dgram.adop at e
  dsimp only at e
  split at e
  · exact K.dopRest (s := { s with dop := false }) h e
  · obtain ⟨c, hg, e⟩ := bind_some' e
    split at e
    · split at e
      · cases e; exact K.callRead (s := U.put { s with dop := false } _ _) h
      · exact K.dopRest (s := U.put { s with dop := false } _ _) h e
    · exact K.dopRest (s := { s with dop := false }) h e

theorem K.startCdop {s t : U} {i : Nat} (h : K s) (e : Dgram.startCdop s i = some t) : K t := by
  unfold Dgram.startCdop at e
  obtain ⟨c, hg, e⟩ := bind_some' e
  split at e
  · cases e; exact h
  · cases hr : Dgram.ref s with
    | none => rw [hr] at e; cases e
    | some u => have h' := h.ref hr; rw [hr] at e; cases e; exact h'

theorem startCdop_rd {s t : U} {i : Nat} (e : Dgram.startCdop s i = some t) : t.rdCnt = s.rdCnt ∧ t.rhDis = s.rhDis := by
  unfold Dgram.startCdop at e
  obtain ⟨c, hg, e⟩ := bind_some' e
  split at e
  · cases e; exact ⟨rfl, rfl⟩
  · unfold Dgram.ref at e
    split at e
    · cases e
    · cases e; exact ⟨rfl, rfl⟩

theorem K.opn {s t : U} {i : Nat} {done : Option Nat} (h : K s) (e : Dgram.opn s i done = some t) : K t := by
  unfold Dgram.opn at e
  obtain ⟨c, hg, e⟩ := bind_some' e
  split at e
  · cases e; exact h
  · have h1 : K (fdReadDisable { s with udpns := s.udpns ++ [i] }) :=
      K.check (s := { s with udpns := s.udpns ++ [i], rdCnt := s.rdCnt + 1 }) ⟨h.1, h.2.1, h.2.2.1, Nat.succ_ne_zero _, h.2.2.2.2⟩
    dsimp only at e
    refine K.startCdop ?_ e
    cases done <;> exact h1

theorem I.pos {k : Nat} {s : U} (h : I k s) (hr : s.rhDis = true) : s.rdCnt ≠ 0 := by
  have := h.rdc
  have := h.rh hr
  omega

theorem fdWriteDisable_rd {s t : U} (e : Dgram.fdWriteDisable s = some t) : t.rdCnt = s.rdCnt ∧ t.rhDis = s.rhDis := by
  unfold Dgram.fdWriteDisable at e
  split at e
  · cases e
  · cases e; exact ⟨rfl, rfl⟩

theorem checkRead_rd (s : U) : (checkRead s).rdCnt = s.rdCnt ∧ (checkRead s).rhDis = s.rhDis := by
  unfold checkRead; split
  · exact ⟨rfl, rfl⟩
  · split <;> exact ⟨rfl, rfl⟩

theorem K.fdReadEnable {s t : U} (h : K s) (ht : t.rhDis = true → t.rdCnt ≠ 0) (e : Dgram.fdReadEnable s = some t) : K t := by
  unfold Dgram.fdReadEnable at e
  split at e
  · cases e
  · cases e
    have hx := checkRead_rd { s with rdCnt := s.rdCnt - 1 }
    have := ht (hx.2.trans h.1)
    rw [hx.1] at this
    exact K.check (s := { s with rdCnt := s.rdCnt - 1 }) ⟨h.1, h.2.1, h.2.2.1, this, h.2.2.2.2⟩

theorem startDop_rd {s t : U} (e : Dgram.startDop s = some t) : t.rdCnt = s.rdCnt ∧ t.rhDis = s.rhDis := by
  unfold Dgram.startDop at e
  split at e
  · cases e; exact ⟨rfl, rfl⟩
  · unfold Dgram.ref at e
    split at e
    · cases e
    · cases e; exact ⟨rfl, rfl⟩

theorem deref_rd {s t : U} (e : Dgram.deref s = some t) : t.rdCnt = s.rdCnt ∧ t.rhDis = s.rhDis := by
  unfold Dgram.deref at e
  split at e
  · cases e
  · split at e <;> cases e <;> exact ⟨rfl, rfl⟩

theorem K.startClose {s t : U} {i : Nat} {done : Option Nat} (h : K s) (ht : t.rhDis = true → t.rdCnt ≠ 0) (e : Dgram.startClose s i done = some t) : K t := by
  unfold Dgram.startClose at e
  obtain ⟨c, hg, e⟩ := bind_some' e
  dsimp only at e
  have m0 : K (if s.owner = some i then { s with owner := none, pend := 0 } else s) := by split <;> exact h
  generalize (if s.owner = some i then { s with owner := none, pend := 0 } else s) = s0 at m0 e
  obtain ⟨u, hu, e⟩ := bind_some' e
  obtain ⟨v, hv, e⟩ := bind_some' e
  have hvu : v.rdCnt = u.rdCnt ∧ v.rhDis = u.rhDis := by
    split at hv
    · exact fdWriteDisable_rd hv
    · cases hv; exact ⟨rfl, rfl⟩
  split at e
  · cases e
  · have htv := startCdop_rd e
    have hun : u.rhDis = true → u.rdCnt ≠ 0 := by
      intro hx
      rw [← hvu.1]
      have := ht (htv.2.trans (hvu.2.trans hx))
      rw [htv.1] at this; exact this
    have m1 : K u := by
      split at hu
      · cases hu; exact m0
      · exact m0.fdReadEnable hun hu
    have m2 : K v := by
      split at hv
      · exact m1.fdWriteDisable hv
      · cases hv; exact m1
    exact K.startCdop (s := U.put { v with udpns := v.udpns.erase i } i _) m2 e

theorem K.close {s t : U} {i : Nat} {done : Option Nat} (h : K s) (ht : t.rhDis = true → t.rdCnt ≠ 0) (e : Dgram.close s i done = some t) : K t := by
  unfold Dgram.close at e
  obtain ⟨c, hg, e⟩ := bind_some' e
  split at e
  · cases e; exact h
  · cases done with
    | none => exact h.startClose ht e
    | some id => exact K.startClose (s := s.say _) h ht e

theorem K.free {s t : U} {i : Nat} (h : K s) (ht : t.rhDis = true → t.rdCnt ≠ 0) (e : Dgram.free s i = some t) : K t := by
  unfold Dgram.free at e
  obtain ⟨u, hu, e⟩ := bind_some' e
  have h := h.ref hu
  obtain ⟨c, hg, e⟩ := bind_some' e
  dsimp only at e
  obtain ⟨v, hv, e⟩ := bind_some' e
  have hvt : v.rhDis = true → v.rdCnt ≠ 0 := by
    have hx := deref_rd e
    rw [← hx.1, ← hx.2]; exact ht
  refine K.deref ?_ e
  have h2 : K ((u.put i { c with freed := true }).say (.free i)) := h
  split at hv
  · cases hv; exact h2
  · split at hv
    · exact h2.startClose hvt hv
    · split at hv
      · exact h2.finishFree hv
      · cases hv; exact h2

theorem K.setRead {s t : U} {i : Nat} {b : Bool} (h : K s) (ht : t.rhDis = true → t.rdCnt ≠ 0) (e : Dgram.setRead s i b = some t) : K t := by
  unfold Dgram.setRead at e
  obtain ⟨c, hg, e⟩ := bind_some' e
  split at e
  · cases e; exact h
  · split at e
    · cases e
    · dsimp only at e
      have key : (if b = true then s.rdCnt - 1 else s.rdCnt + 1) ≠ 0 → K { s with rdCnt := if b = true then s.rdCnt - 1 else s.rdCnt + 1 } :=
        fun hx => ⟨h.1, h.2.1, h.2.2.1, hx, h.2.2.2.2⟩
      generalize (if b = true then s.rdCnt - 1 else s.rdCnt + 1) = n at key e
      split at e
      · cases e; exact key (ht h.1)
      · split at e
        · have hx := startDop_rd e
          have := ht (hx.2.trans h.1)
          rw [hx.1] at this
          exact K.startDop (s := U.put { s with rdCnt := n } i _) (key this) e
        · cases e
          have hx := checkRead_rd (U.put { s with rdCnt := n } i { c with rd := b })
          have := ht (hx.2.trans h.1)
          rw [hx.1] at this
          exact K.check (s := U.put { s with rdCnt := n } i { c with rd := b }) (key this)

theorem K.setWrite {s t : U} {i : Nat} {b : Bool} (h : K s) (e : Dgram.setWrite s i b = some t) : K t := by
  unfold Dgram.setWrite at e
  obtain ⟨c, hg, e⟩ := bind_some' e
  split at e
  · cases e; exact h
  · dsimp only at e
    split at e
    · cases e; exact h
    · split at e
      · cases e; exact h
      · exact K.fdWriteDisable (s := s.put i _) h e

theorem K.shutdown {s t : U} {done : Option Nat} (h : K s) (e : Dgram.shutdown s done = some t) : K t := by
  unfold Dgram.shutdown at e
  split at e
  · cases done <;>
    · dsimp only at e
      split at e
      · cases e; exact h
      · refine K.startDop ?_ e; exact h
  · cases e; exact h

theorem K.setEnable {s t : U} {b : Bool} {done : Option Nat} (h : K s) (e : Dgram.setEnable s b done = some t) : K t := by
  unfold Dgram.setEnable at e
  split at e
  · cases e; exact h
  · have key : ∀ u : U, K u → (if u.inNew then some u else (Dgram.ref u).map fun s => if s.enRun then { s with lost := s.lost + 1 } else { s with enRun := true }) = some t → K t := by
      intro u hu e
      split at e
      · cases e; exact hu
      · cases hr : Dgram.ref u with
        | none => rw [hr] at e; cases e
        | some v =>
          rw [hr] at e
          simp only [Option.map_some, Option.some.injEq] at e
          subst e
          have h' := hu.ref hr
          split <;> exact h'
    cases done with
    | none => exact key { s with enabled := b, enDone := none } h e
    | some id => exact key (U.say { s with enabled := b, enDone := some id } (.en id)) h e

theorem K.enOp {s t : U} (h : K s) (e : Dgram.enOp s = some t) : K t := by
  unfold Dgram.enOp at e
  dsimp only at e
  split at e
  · cases e; refine K.call ?_ rfl; exact h
  · exact K.deref (s := { s with enRun := false }) h e

theorem K.accFree {s t : U} (h : K s) (e : Dgram.accFree s = some t) : K t := by
  unfold Dgram.accFree at e
  split at e
  · cases e
  · obtain ⟨u, hu, e⟩ := bind_some' e
    obtain ⟨v, hv, e⟩ := bind_some' e
    have h' := h.ref hu
    exact K.deref (K.checkFinish (s := { u with enabled := false, closed := true, freed := true }) h' hv) e

theorem K.strTo {s t : U} {a : Nat} (h : K s) (e : Dgram.strTo s a = some t) : K t := by
  unfold Dgram.strTo at e
  split at e
  · cases e; exact h
  · exact K.startCdop (s := { s with cs := s.cs ++ [{ C.new a with client := true }], cnt := s.cnt + 1 }) h e

theorem K.cont {s t : U} {th : T} {err : Bool} {count : Nat} (h : K s) (hth : th.isRh = false) (e : Dgram.cont s th err count = some t) : K t := by
  unfold Dgram.cont at e
  cases th with
  | new i => cases hth
  | newEn i => cases hth
  | read i rh =>
    cases rh
    · exact h.readCont e
    · cases hth
  | openCb i =>
    obtain ⟨c, hg, e⟩ := bind_some' e
    exact K.cdopRest (K.check (s := s.put i _) h) e
  | closeCb i ctx =>
    obtain ⟨c, hg, e⟩ := bind_some' e
    obtain ⟨u, hu, e⟩ := bind_some' e
    refine K.fin (K.finishClose2 (s := s.put i _) h hu) ?_ e
    rintro rfl
    cases hth
  | shutRh i => cases hth
  | shutDop =>
    obtain ⟨u, hu, e⟩ := bind_some' e
    exact (h.checkFinish hu).dopEnd e
  | wr i => exact h.wrCont e
  | en => exact h.deref e

/-- Stopped reading stays stopped, unless the accepter is started again or the handler was about to be called when it was stopped. -/
theorem K.step {g : Cfg} {s t : U} {op : Op} (hI : I 0 s) (h : K s) (hcan : can s op = true) (e : Dgram.step g s op = some t) (h1 : op ≠ .startup)
    (h2 : ∀ a len, op ≠ .rx true a len) : K t := by
  have hIt : I 0 t := hI.step hcan e
  have ht : t.rhDis = true → t.rdCnt ≠ 0 := hIt.pos
  unfold Dgram.step at e
  split at e
  · cases e
  · cases op with
    | rx late a len =>
      cases late
      · simp [can, h.2.2.1] at hcan
      · exact absurd rfl (h2 a len)
    | tx late => exact h.tx e
    | cdop i => exact h.cdop e
    | adop => exact h.adop e
    | enOp => exact h.enOp e
    | cleared => exact K.deref (s := { s with clearing := s.clearing - 1 }) h e
    | cont k err count =>
      obtain ⟨th, hk, e⟩ := bind_some' e
      have hc := countP_erase (p := T.isRh) hk
      have h0 := h.2.2.2.2
      have hth : th.isRh = false := by
        cases hx : th.isRh
        · rfl
        · rw [hx] at hc; simp at hc; omega
      exact K.cont (s := { s with ths := s.ths.eraseIdx k }) ⟨h.1, h.2.1, h.2.2.1, h.2.2.2.1, by show (s.ths.eraseIdx k).countP T.isRh = 0; omega⟩ hth e
    | opn i done => exact h.opn e
    | close i done => exact h.close ht e
    | free i => exact h.free ht e
    | setRead i b => exact h.setRead ht e
    | setWrite i b => exact h.setWrite e
    | startup => exact absurd rfl h1
    | shutdown done => exact h.shutdown e
    | setEnable b done => exact h.setEnable e
    | accFree => exact h.accFree e
    | strTo a => exact h.strTo e

end Gensio.Dgram
