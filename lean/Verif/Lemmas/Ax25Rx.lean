import Verif.Lemmas.Ax25Keep

/-!
What the frames of the peer keep of a channel.
-/
namespace Gensio.Ax25

/-- The handler keeps the channel as it is seen by the peer. -/
def KG (m : Nat) (ph : Ph) (W : List Pkt) (A V R : Nat) (q : List (UInt8 × UInt8)) (o : Option (Chan × Nat)) : Prop :=
  ∀ c' e, o = some (c', e) → K m ph W A V R q c' ∧ c'.inChans = true

theorem KG.some {m ph W A V R q} {c : Chan} {e : Nat} (h : K m ph W A V R q c) (hi : c.inChans = true) : KG m ph W A V R q (some (c, e)) := by
  intro c' e' h'; cases h'; exact ⟨h, hi⟩

theorem KG.none {m ph W A V R q} : KG m ph W A V R q none := by
  intro c' e' h'; cases h'

theorem KG.rewind {m ph W A V R q} {c : Chan} (h : K m ph W A V R q c) (hi : c.inChans = true) (hp : ph ≠ .opening) (nr sel) :
    KG m ph W A V R q ((rewindSeq c nr sel).map (·, 0)) := by
  intro c' e he
  cases hr : rewindSeq c nr sel with
  | none => rw [hr] at he; cases he
  | some c1 =>
    rw [hr] at he; cases he
    have := rewindSeq_keep h hp hr
    exact ⟨this.1, this.2.trans hi⟩

theorem inChans_sendAck (c : Chan) (pf ic) : (sendAck c pf ic).inChans = c.inChans := inChans_ecore (ecore_sendAck ..)

theorem inChans_checkRspNeeded (c : Chan) (pf ic) : (checkRspNeeded c pf ic).inChans = c.inChans := inChans_core (core_checkRspNeeded ..)

theorem checkDrainDone_keep {m ph W A V R q} {c : Chan} (h : K m ph W A V R q c) (hp : ph ≠ .opening) : K m ph W A V R q (checkDrainDone c) := by
  unfold checkDrainDone
  split
  · exact (h.cmd (cmd := .unn .disc) (fun _ => hp) true).setState (fun _ => hp) (by simp)
  · exact h

theorem inChans_checkDrainDone (c : Chan) : (checkDrainDone c).inChans = c.inChans := by
  unfold checkDrainDone
  split
  · show (sendCmd c (.unn .disc) true).inChans = c.inChans
    exact inChans_ecore (ecore_sendCmd ..)
  · rfl

theorem inChans_updateVa (c : Chan) (nr) : (updateVa c nr).inChans = c.inChans := rfl

theorem recoveryRsp_keep {m ph W A V R q} {c : Chan} (hm : m = 8 ∨ m = 128) (h : K m ph W A V R q c) (hi : c.inChans = true) (hp : ph ≠ .opening)
    (ha : A ≤ W.length) (pf ic) : KG m ph W A V R q (recoveryRsp c (A % m) pf ic) := by
  unfold recoveryRsp
  split
  · split
    · exact .some h hi
    · dsimp only
      have hk := updateVa_keep hm h hi ha
      split
      · exact .some (hk.same rfl rfl) hi
      · exact .rewind hk hi hp _ _
  · dsimp only
    have key : ∀ x : Chan, K m ph W A V R q x → x.inChans = true →
        KG m ph W A V R q (if nrInRange x (A % m) = false then some (x, geProtoerr) else some (updateVa x (A % m), 0)) := by
      intro x hx hxi
      split
      · exact .some hx hxi
      · exact .some (updateVa_keep hm hx hxi ha) hxi
    split
    · exact key _ (h.ack' (fun _ => hp) _ _) ((inChans_sendAck ..).trans hi)
    · exact key _ h hi

theorem handleRrRnr_keep {m ph W A V R q} {c : Chan} (hm : m = 8 ∨ m = 128) (h : K m ph W A V R q c) (hi : c.inChans = true) (hp : ph ≠ .opening)
    (ha : A ≤ W.length) (pf ic) : KG m ph W A V R q (handleRrRnr c (A % m) pf ic) := by
  unfold handleRrRnr
  have key : KG m ph W A V R q (if c.pollPending then recoveryRsp c (A % m) pf ic
      else
        let c := checkRspNeeded c pf ic
        if nrInRange c (A % m) = false then some (c, geProtoerr) else some (checkIAcked c (A % m), 0)) := by
    split
    · exact recoveryRsp_keep hm h hi hp ha pf ic
    · dsimp only
      have hk := checkRspNeeded_keep h hp pf ic
      have hki := (inChans_checkRspNeeded c pf ic).trans hi
      split
      · exact .some hk hki
      · exact .some (checkIAcked_keep hm hk hki ha) ((checkIAcked_inChans ..).trans hki)
  dsimp only at key ⊢
  generalize (if c.pollPending then recoveryRsp c (A % m) pf ic
      else
        if nrInRange (checkRspNeeded c pf ic) (A % m) = false then some (checkRspNeeded c pf ic, geProtoerr)
        else some (checkIAcked (checkRspNeeded c pf ic) (A % m), 0)) = o at key ⊢
  cases o with
  | none => exact .none
  | some x =>
    obtain ⟨x, e⟩ := x
    obtain ⟨hx, hxi⟩ := key x e rfl
    dsimp only
    split
    · exact .some hx hxi
    · split
      · exact .some (checkDrainDone_keep hx hp) ((inChans_checkDrainDone _).trans hxi)
      · exact .some hx hxi

theorem dmRsp_keep {m ph W A V R q} {c : Chan} (h : K m ph W A V R q c) (hi : c.inChans = true) (hp : ph ≠ .peerOpening) (pf : Bool) :
    KG m ph W A V R q (some (if pf then sendRsp c (.unn .dm) pf else c, 0)) := by
  split
  · exact .some (h.rsp (cmd := .unn .dm) (fun _ => hp) _) ((inChans_ecore (ecore_sendRsp ..)).trans hi)
  · exact .some h hi

theorem K.notOpening {m ph W A V R q} {c : Chan} (h : K m ph W A V R q c) (hi : c.inChans = true) (hs : c.state ≠ .inOpen) : ph ≠ .opening :=
  fun hp => hs ((h.live hi).st.2 hp)

theorem handleRr_keep {m ph W A V R q} {c : Chan} (hm : m = 8 ∨ m = 128) (h : K m ph W A V R q c) (hi : c.inChans = true) (hpp : ph ≠ .peerOpening)
    (ha : A ≤ W.length) (pf ic) : KG m ph W A V R q (handleRr c (A % m) pf ic) := by
  have hno := h.notOpening hi
  unfold handleRr
  split <;> rename_i hs <;> first
    | exact .some h hi
    | exact dmRsp_keep h hi hpp pf
    | exact handleRrRnr_keep (c := { c with peerBsy := false }) hm (h.same rfl rfl) hi (hno (by simp [hs])) ha pf ic
    | exact .none

theorem handleRnr_keep {m ph W A V R q} {c : Chan} (hm : m = 8 ∨ m = 128) (h : K m ph W A V R q c) (hi : c.inChans = true) (hpp : ph ≠ .peerOpening)
    (ha : A ≤ W.length) (pf ic) : KG m ph W A V R q (handleRnr c (A % m) pf ic) := by
  have hno := h.notOpening hi
  unfold handleRnr
  split <;> rename_i hs <;> first
    | exact .some h hi
    | exact dmRsp_keep h hi hpp pf
    | exact handleRrRnr_keep (c := { c with peerBsy := true }) hm (h.same rfl rfl) hi (hno (by simp [hs])) ha pf ic
    | exact .none

theorem rejBody_keep {m ph W A V R q} {c : Chan} (h : K m ph W A V R q c) (hi : c.inChans = true) (hp : ph ≠ .opening) (nr pf ic sel) :
    KG m ph W A V R q (let c := checkRspNeeded c pf ic
      if nrInRange c nr = false then some (c, geProtoerr) else (rewindSeq c nr sel).map (·, 0)) := by
  dsimp only
  have hk := checkRspNeeded_keep h hp pf ic
  have hki := (inChans_checkRspNeeded c pf ic).trans hi
  split
  · exact .some hk hki
  · exact .rewind hk hki hp _ _

theorem handleRej_keep {m ph W A V R q} {c : Chan} (h : K m ph W A V R q c) (hi : c.inChans = true) (hpp : ph ≠ .peerOpening)
    (nr pf ic) : KG m ph W A V R q (handleRej c nr pf ic) := by
  have hno := h.notOpening hi
  have key : ph ≠ .opening → KG m ph W A V R q (if c.pollPending then
      let c := if ic = true ∧ pf = true then sendAck c pf false else c
      if nrInRange c nr = false then some (c, geProtoerr)
      else
        let c := { c with va := nr }
        if c.va = c.vs then some (c, 0) else (rewindSeq c nr false).map (·, 0)
    else
      let c := checkRspNeeded c pf ic
      if nrInRange c nr = false then some (c, geProtoerr) else (rewindSeq c nr false).map (·, 0)) := by
    intro hp
    split
    · dsimp only
      have k2 : ∀ x : Chan, K m ph W A V R q x → x.inChans = true → KG m ph W A V R q (if nrInRange x nr = false then some (x, geProtoerr)
          else if nr = x.vs then some ({ x with va := nr }, 0) else (rewindSeq { x with va := nr } nr false).map (·, 0)) := by
        intro x hx hxi
        split
        · exact .some hx hxi
        · have hx' : K m ph W A V R q { x with va := nr } := hx.same rfl rfl
          split
          · exact .some hx' hxi
          · exact .rewind hx' hxi hp _ _
      split
      · exact k2 _ (h.ack' (fun _ => hp) _ _) ((inChans_sendAck ..).trans hi)
      · exact k2 _ h hi
    · exact rejBody_keep h hi hp nr pf ic false
  unfold handleRej
  split <;> rename_i hs <;> first
    | exact .some h hi
    | exact dmRsp_keep h hi hpp pf
    | exact key (hno (by simp [hs]))
    | exact .none

theorem handleSrej_keep {m ph W A V R q} {c : Chan} (h : K m ph W A V R q c) (hi : c.inChans = true) (hpp : ph ≠ .peerOpening)
    (nr pf ic) : KG m ph W A V R q (handleSrej c nr pf ic) := by
  have hno := h.notOpening hi
  have key : ph ≠ .opening → KG m ph W A V R q (if c.pollPending then
      if nrInRange c nr = false then some (c, geProtoerr)
      else
        let c := if pf then { c with va := nr } else c
        if c.va = c.vs then some (c, 0) else (rewindSeq c nr true).map (·, 0)
    else
      let c := checkRspNeeded c pf ic
      if nrInRange c nr = false then some (c, geProtoerr) else (rewindSeq c nr true).map (·, 0)) := by
    intro hp
    split
    · split
      · exact .some h hi
      · dsimp only
        have k2 : ∀ x : Chan, K m ph W A V R q x → x.inChans = true → KG m ph W A V R q (if x.va = x.vs then some (x, 0) else (rewindSeq x nr true).map (·, 0)) := by
          intro x hx hxi
          split
          · exact .some hx hxi
          · exact .rewind hx hxi hp _ _
        split
        · exact k2 _ (h.same rfl rfl) hi
        · exact k2 _ h hi
    · exact rejBody_keep h hi hp nr pf ic true
  unfold handleSrej
  split <;> rename_i hs <;> first
    | exact .some h hi
    | exact dmRsp_keep h hi hpp pf
    | exact key (hno (by simp [hs]))
    | exact .none

/-- What an I frame can do: nothing to what is stored, or to store its packet, the next one. -/
def IStep (m : Nat) (ph : Ph) (W : List Pkt) (A V R : Nat) (q : List (UInt8 × UInt8)) (k : Nat) (p : Pkt) (c' : Chan) : Prop :=
  ∃ V' R' q', K m ph W A V' R' q' c' ∧ V ≤ V' ∧ V' ≤ R' ∧ ((R' = R ∧ q' = q) ∨ (k = R ∧ R' = R + 1 ∧ q' = q ++ p.2.map (p.1, ·)))

theorem IStep.keep {m ph W A V R q k p} {c' : Chan} (hv : V ≤ R) (h : K m ph W A V R q c') : IStep m ph W A V R q k p c' :=
  ⟨V, R, q, h, Nat.le_refl _, hv, .inl ⟨rfl, rfl⟩⟩

theorem handleI_keep {m ph W A R q} {c c' : Chan} {k er : Nat} {p : Pkt} {pf ic : Bool} (hm : m = 8 ∨ m = 128) (hs : Safe c) (h : K m ph W A R R q c)
    (hi : c.inChans = true) (hpp : ph ≠ .peerOpening) (hk1 : k < R + m) (hk2 : R < k + m) (ha : A ≤ W.length)
    (e : handleI c (A % m) (k % m) pf ic (p.1 :: p.2) = some (c', er)) : IStep m ph W A R R q k p c' := by
  have h1 : K m ph W A R R q { c with gotFirst := true } := h.same rfl rfl
  have hs1 : Safe { c with gotFirst := true } := hs.of rfl
  have hno := h.notOpening hi
  have hle := Nat.le_refl R
  unfold handleI at e
  dsimp only at e
  have key : ph ≠ .opening → (if ic = false then some ({ c with gotFirst := true }, 0)
    else if (p.1 :: p.2).length > c.conf.maxRead + 1 then some ({ c with gotFirst := true }, geProtoerr)
    else if nrInRange { c with gotFirst := true } (A % m) = false then some ({ c with gotFirst := true }, geProtoerr)
    else if (checkIAcked { c with gotFirst := true } (A % m)).state = .opn then handleData (checkIAcked { c with gotFirst := true } (A % m)) (k % m) pf (p.1 :: p.2)
      else some (checkDrainDone (checkIAcked { c with gotFirst := true } (A % m)), 0)) = some (c', er) → IStep m ph W A R R q k p c' := by
    intro hp e
    split at e
    · cases e; exact .keep hle h1
    · split at e
      · cases e; exact .keep hle h1
      · split at e
        · cases e; exact .keep hle h1
        · rename_i hr
          have hk := checkIAcked_keep hm h1 hi ha
          have hki := (checkIAcked_inChans { c with gotFirst := true } (A % m)).trans hi
          have hn : A % m < ({ c with gotFirst := true } : Chan).modulo := by
            show _ < c.modulo
            rw [(h.live hi).md]; exact Nat.mod_lt _ (by omega)
          have hsk := hs1.checkIAcked (by simpa using hr) hn
          split at e
          · obtain ⟨V', R', q', a1, a2, a3, a4⟩ := handleData_keep hm hsk hk hki hp hk1 hk2 e
            exact ⟨V', R', q', a1, a2, a3, a4⟩
          · cases e; exact .keep hle (checkDrainDone_keep hk hp)
  split at e <;> rename_i hst
  · cases e; exact .keep hle h1
  · cases e; exact .keep hle h1
  · cases e; exact .keep hle h1
  · cases e
    split
    · exact .keep hle (h1.rsp (cmd := .unn .dm) (fun _ => hpp) _)
    · exact .keep hle h1
  · exact key (hno (by rw [hst]; simp)) e
  · exact key (hno (by rw [hst]; simp)) e
  · cases e

end Gensio.Ax25
