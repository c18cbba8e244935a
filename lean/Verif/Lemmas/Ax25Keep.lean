import Verif.Lemmas.Ax25Read

/-!
What each event keeps of a channel between two stations.
-/
namespace Gensio.Ax25

theorem K.ack' {m ph W A V R q} {c : Chan} (h : K m ph W A V R q c) (hp : c.inChans = true → ph ≠ .opening) (pf ic : Bool) :
    K m ph W A V R q (sendAck c pf ic) := h.of (by simp) fun hi => (h.cmds hi).sendAck (hp hi) pf ic

theorem K.cr {m ph W A V R q} {c : Chan} (h : K m ph W A V R q c) {cmd ex} (hp : c.inChans = true → cmdAllowed m ph cmd ex) (pf ic : Bool) :
    K m ph W A V R q (sendCr c cmd pf ic ex) := h.of (by simp) fun hi => (h.cmds hi).sendCr (hp hi) pf ic

theorem K.rsp {m ph W A V R q} {c : Chan} (h : K m ph W A V R q c) {cmd} (hp : c.inChans = true → cmdAllowed m ph cmd []) (pf : Bool) :
    K m ph W A V R q (sendRsp c cmd pf) := h.cr hp ..

theorem K.cmd {m ph W A V R q} {c : Chan} (h : K m ph W A V R q c) {cmd} (hp : c.inChans = true → cmdAllowed m ph cmd []) (pf : Bool) :
    K m ph W A V R q (sendCmd c cmd pf) := h.cr hp ..

theorem K.same {m ph W A V R q} {c c' : Chan} (h : K m ph W A V R q c) (e : ecore c' = ecore c) (hq : c'.cmdrsp = c.cmdrsp) : K m ph W A V R q c' :=
  h.of e fun hi => by unfold CmdsOk; rw [hq]; exact h.cmds hi

theorem K.setState {m ph W A V R q} {c : Chan} (h : K m ph W A V R q c) (hp : c.inChans = true → ph ≠ .opening) {st : St} (hs : st ≠ .inOpen) :
    K m ph W A V R q { c with state := st } := by
  refine ⟨⟨h.rl, fun hi => ?_, h.qb⟩, h.ir⟩
  have hi' : c.inChans = true := hi
  obtain ⟨h1, h2, h3, h4, h5, h6, h7, h8, h9, h10, h11, h12, h13, h14⟩ := h.live hi'
  constructor <;> first | assumption | (simp [hs]; exact hp hi')

theorem K.data {m ph W A V R q} {c : Chan} (h : K m ph W A V R q c) (hp : c.inChans = true → ph ≠ .opening) : K m .data W A V R q c := by
  refine ⟨⟨h.rl, fun hi => ?_, h.qb⟩, h.ir⟩
  obtain ⟨h1, h2, h3, h4, h5, h6, h7, h8, h9, h10, h11, h12, h13, h14⟩ := h.live hi
  constructor <;> first | assumption | skip
  · exact fun e he => (h11 e he).data
  · simp [h12, hp hi]
  · simp

theorem K.more {m ph W A A' V R q} {c : Chan} (h : K m ph W A V R q c) (ha : A ≤ A') : K m ph W A' V R q c := by
  refine ⟨⟨h.rl, fun hi => ?_, h.qb⟩, h.ir⟩
  obtain ⟨h1, h2, h3, h4, h5, h6, h7, h8, h9, h10, h11, h12, h13, h14⟩ := h.live hi
  constructor <;> first | assumption | omega

theorem moveToClosed_keep {m ph W A V R q} {c c' : Chan} (h : K m ph W A V R q c) (e : moveToClosed c = some c') : K m ph W A V R q c' ∧ c'.inChans = false := by
  unfold moveToClosed at e
  split at e
  · cases e; exact ⟨h.out rfl rfl rfl, rfl⟩
  · cases e

theorem K.out' {m ph W A V R q} {c c' : Chan} (h : K m ph W A V R q c) {f : Chan → Chan} (hf : rcore (f c) = rcore c) (hi : (f c).inRead = c.inRead)
    (e : moveToClosed (f c) = some c') : K m ph W A V R q c' ∧ c'.inChans = false := by
  unfold moveToClosed at e
  split at e
  · cases e; exact ⟨h.out hf hi rfl, rfl⟩
  · cases e

theorem doClose_keep {m ph W A V R q} {c c' : Chan} (h : K m ph W A V R q c) (e : doClose c = some c') : K m ph W A V R q c' ∧ c'.inChans = false :=
  h.out' (f := fun c => { c with state := .reportClose }) rfl rfl e

theorem doErrClose_keep {m ph W A V R q} {c c' : Chan} (h : K m ph W A V R q c) (e : doErrClose c = some c') : K m ph W A V R q c' ∧ c'.inChans = false := by
  unfold doErrClose at e
  split at e
  · exact h.out' (f := fun c => { c with state := .closed }) rfl rfl e
  · exact h.out' (f := fun c => { c with state := .reportClose }) rfl rfl e
  · exact h.out' (f := fun c => { c with state := .reportClose }) rfl rfl e
  · exact h.out' (f := fun c => { c with state := .reportClose }) rfl rfl e
  · exact h.out' (f := fun c => { c with state := .ioErr }) rfl rfl e

theorem moveToClosed_inRead {c c' : Chan} (e : moveToClosed c = some c') : c'.inRead = c.inRead := by
  unfold moveToClosed at e
  split at e
  · cases e; rfl
  · cases e

theorem doErrClose_inRead {c c' : Chan} (e : doErrClose c = some c') : c'.inRead = c.inRead := by
  unfold doErrClose at e
  split at e <;> exact (moveToClosed_inRead e).trans rfl

/-! ## Reading -/

theorem readRet_keep {m ph W A V R q} {c c' : Chan} {r o} (hm : m = 8 ∨ m = 128) (hs : Safe c) (h : K m ph W A V R q c) (hv : V ≤ R)
    (e : readRet c r = some (c', o)) : c.inRead.isSome ∧ ∃ V' q', V ≤ V' ∧ V' ≤ R ∧ K m ph W A V' R q' c' ∧ q = o ++ q' := by
  unfold readRet at e
  split at e
  · cases e
  · rename_i ir hir
    refine ⟨by rw [hir]; rfl, ?_⟩
    obtain ⟨hidx, hlen⟩ := h.ir ir hir
    cases r with
    | error er =>
      dsimp only at e
      split at e
      · cases hd : doErrClose { c with err := er } with
        | none => rw [hd] at e; cases e
        | some c1 =>
          rw [hd] at e
          simp only [Option.map_some, Option.some.injEq, Prod.mk.injEq] at e
          obtain ⟨rfl, rfl⟩ := e
          have h1 := (doErrClose_keep (c := { c with err := er }) (h.same rfl rfl) hd).1
          have hi1 : c1.inRead.isSome := by
            have : c1.inRead = c.inRead := (doErrClose_inRead hd).trans rfl
            rw [this, hir]; rfl
          obtain ⟨V', a, b, k, _⟩ := readExit_keep hm h1.toK0 hv hi1
          exact ⟨V', q, a, b, k, rfl⟩
      · cases e
        obtain ⟨V', a, b, k, _⟩ := readExit_keep hm h.toK0 hv (by rw [hir]; rfl)
        exact ⟨V', q, a, b, k, rfl⟩
    | ok n =>
      dsimp only at e
      rw [hidx] at e
      cases hd : c.rd[c.readPos]? with
      | none => rw [hd] at e; cases e
      | some d =>
        rw [hd] at e
        dsimp only at e
        have hrw := hs.rpos
        split at e
        · cases e
          have hq := qb_part (c' := { c with rd := c.rd.set c.readPos { d with rest := d.rest.drop n } }) hlen h.rl hs.rdl hrw hd n rfl
          have h1 : K0 m ph W A V R (qb { c with rd := c.rd.set c.readPos { d with rest := d.rest.drop n } }) { c with rd := c.rd.set c.readPos { d with rest := d.rest.drop n } } := by
            refine ⟨h.rl, fun hi => ?_, rfl⟩
            have hi' : c.inChans = true := hi
            obtain ⟨h1, h2, h3, h4, h5, h6, h7, h8, h9, h10, h11, h12, h13, h14⟩ := h.live hi'
            constructor <;> assumption
          obtain ⟨V', a, b, k, _⟩ := readLoop_keep hm h1 hv (by rw [show ({ c with rd := c.rd.set c.readPos { d with rest := d.rest.drop n } } : Chan).inRead = c.inRead from rfl, hir]; rfl)
          exact ⟨V', _, a, b, k, by rw [← h.qb]; exact hq⟩
        · cases e
          have hrl := h.rl
          have hr1 := hs.rw1
          have e1 : addSeq c.readPos 1 c.conf.readwindow = (c.readPos + 1) % c.conf.readwindow := addSeq_mod (by omega) hrw (by omega)
          have e2 : u8 (c.readLen + 255) = c.readLen - 1 := by unfold u8; omega
          rw [e1, e2]
          have hq := qb_next (c' := { c with readPos := (c.readPos + 1) % c.conf.readwindow, readLen := c.readLen - 1 }) hlen h.rl hrw hd rfl
          have h1 : K0 m ph W A V R (qb { c with readPos := (c.readPos + 1) % c.conf.readwindow, readLen := c.readLen - 1 }) { c with readPos := (c.readPos + 1) % c.conf.readwindow, readLen := c.readLen - 1 } := by
            refine ⟨by show c.readLen - 1 ≤ c.conf.readwindow; omega, fun hi => ?_, rfl⟩
            have hi' : c.inChans = true := hi
            obtain ⟨h1, h2, h3, h4, h5, h6, h7, h8, h9, h10, h11, h12, h13, h14⟩ := h.live hi'
            constructor <;> first | assumption | skip
            intro ho; have := h13 ho; omega
          obtain ⟨V', a, b, k, _⟩ := readLoop_keep hm h1 hv (by rw [show ({ c with readPos := (c.readPos + 1) % c.conf.readwindow, readLen := c.readLen - 1 } : Chan).inRead = c.inRead from rfl, hir]; rfl)
          exact ⟨V', _, a, b, k, by rw [← h.qb]; exact hq⟩

theorem handleData_keep {m ph W A R q} {c c' : Chan} {k er : Nat} {p : Pkt} {pf : Bool} (hm : m = 8 ∨ m = 128) (hs : Safe c) (h : K m ph W A R R q c)
    (hi : c.inChans = true) (hp : ph ≠ .opening) (hk1 : k < R + m) (hk2 : R < k + m)
    (e : handleData c (k % m) pf (p.1 :: p.2) = some (c', er)) :
    ∃ V' R' q', K m ph W A V' R' q' c' ∧ R ≤ V' ∧ V' ≤ R' ∧ ((R' = R ∧ q' = q) ∨ (k = R ∧ R' = R + 1 ∧ q' = q ++ p.2.map (p.1, ·))) := by
  have keep : ∀ {x : Chan}, K m ph W A R R q x → ∃ V' R' q', K m ph W A V' R' q' x ∧ R ≤ V' ∧ V' ≤ R' ∧
      ((R' = R ∧ q' = q) ∨ (k = R ∧ R' = R + 1 ∧ q' = q ++ p.2.map (p.1, ·))) :=
    fun hx => ⟨R, R, q, hx, Nat.le_refl _, Nat.le_refl _, .inl ⟨rfl, rfl⟩⟩
  have hl := h.live hi
  unfold handleData at e
  dsimp only at e
  split at e
  · cases e
    split
    · exact keep (h.ack' (fun _ => hp) _ _)
    · exact keep h
  · split at e
    · rename_i hns
      have hkR : k = R := mod_inj (by rw [hns, hl.vr]) hk1 hk2
      split at e
      · cases e; exact keep h
      · rename_i hlen
        split at e
        · cases e
        · cases e
          have h0 := hs.rw0; have h1 := hs.rw1; have h2 := hs.rpos
          have hpos : addSeq c.readPos c.readLen c.conf.readwindow = (c.readPos + c.readLen) % c.conf.readwindow := addSeq_mod (by omega) h2 (by omega)
          have hlen' : u8 (c.readLen + 1) = c.readLen + 1 := by unfold u8; omega
          rw [hpos, hlen']
          have hpc : pend c = 0 := by have := hl.pnd; omega
          have hq := qb_store h0 hs.rdl (by omega) ⟨p.2, p.1⟩ (fun c => { c with inRej := false, rd := c.rd.set ((c.readPos + c.readLen) % c.conf.readwindow) ⟨p.2, p.1⟩, readLen := c.readLen + 1 }) rfl
          dsimp only at hq
          rw [h.qb] at hq
          have k1 : K0 m ph W A R R (q ++ p.2.map (p.1, ·)) { c with inRej := false, rd := c.rd.set ((c.readPos + c.readLen) % c.conf.readwindow) ⟨p.2, p.1⟩, readLen := c.readLen + 1 } := by
            refine ⟨by show c.readLen + 1 ≤ c.conf.readwindow; omega, fun _ => ?_, hq⟩
            obtain ⟨h1, h2, h3, h4, h5, h6, h7, h8, h9, h10, h11, h12, h13, h14⟩ := hl
            constructor <;> first | assumption | (intro ho; exact absurd ho hp)
          unfold deliverRead
          split
          · rename_i r hir
            dsimp only at hir ⊢
            obtain ⟨b1, b2, b3, b4⟩ := checkBusy_keep k1
            obtain ⟨f1, f2, f3, f4⟩ := rxFinish_keep hm b1 (fun _ => hp) pf
            have f3' := f3.trans b3
            simp only [rcore, Prod.mk.injEq] at f3'
            have hir' := h.ir
            refine ⟨R + 1, R + 1, _, ⟨f1, ?_⟩, by omega, Nat.le_refl _, .inr ⟨hkR, rfl, rfl⟩⟩
            rw [f2, b2, f3'.2.2.1, f3'.2.2.2]
            intro r hr
            exact ⟨(hir' r hr).1, by omega⟩
          · rename_i hir
            have k2 : K0 m ph W A R (R + 1) (q ++ p.2.map (p.1, ·)) { c with inRej := false, rd := c.rd.set ((c.readPos + c.readLen) % c.conf.readwindow) ⟨p.2, p.1⟩, readLen := c.readLen + 1, inRead := some ⟨c.readPos, some pf⟩ } := by
              refine ⟨k1.rl, fun _ => ?_, hq⟩
              obtain ⟨h1, h2, h3, h4, h5, h6, h7, h8, h9, h10, h11, h12, h13, h14⟩ := k1.live hi
              constructor <;> first | assumption | (intro ho; exact absurd ho hp) | skip
              show R + pend { c with inRej := false, rd := _, readLen := c.readLen + 1, inRead := some ⟨c.readPos, some pf⟩ } = R + 1
              simp [pend]
            obtain ⟨V', a, b, kk, _⟩ := readLoop_keep hm k2 (by omega) rfl
            exact ⟨V', R + 1, _, kk, a, b, .inr ⟨hkR, rfl, rfl⟩⟩
    · split at e
      · split at e
        · cases e
          split
          · exact keep (h.ack' (fun _ => hp) _ _)
          · exact keep h
        · cases e
          have h1 : K m ph W A R R q { c with inRej := true } := h.same rfl rfl
          have h2 := h1.rsp (cmd := .sup .rej) (fun _ => hp) pf
          exact keep (h2.same rfl rfl)
      · cases e; exact keep h

/-! ## Acknowledgements -/

theorem nr_ok {m ph W A V R q} {c : Chan} (hm : m = 8 ∨ m = 128) (h : K m ph W A V R q c) (hi : c.inChans = true) (ha : A ≤ W.length) :
    nrInRange c (A % m) = true ∧ subSeq (A % m) (subSeq c.vs c.writeLen c.modulo) c.modulo = A - (W.length - c.writeLen) ∧
      subSeq c.vs (A % m) c.modulo = W.length - A := by
  have hl := h.live hi
  have h1 := hl.wl; have h2 := hl.ack; have h3 := hl.wlm
  have := nr_exact (S := W.length) (F := W.length - c.writeLen) (a := A) (m := m) (wl := c.writeLen) (by omega) h3 (by omega) (by omega) ha
  unfold nrInRange
  rw [hl.vs, hl.md]
  exact this

theorem updateVa_keep {m ph W A V R q} {c : Chan} (hm : m = 8 ∨ m = 128) (h : K m ph W A V R q c) (hi : c.inChans = true) (ha : A ≤ W.length) :
    K m ph W A V R q (updateVa c (A % m)) := by
  refine ⟨⟨h.rl, fun _ => ?_, h.qb⟩, h.ir⟩
  have hn := nr_ok hm h hi ha
  have hl := h.live hi
  have h1 := hl.wl; have h2 := hl.ack; have h3 := hl.wlm
  have hw : u8 (c.writeLen + 256 - subSeq (A % m) (subSeq c.vs c.writeLen c.modulo) c.modulo) = W.length - A := by
    rw [hn.2.1]; unfold u8; omega
  unfold updateVa
  dsimp only
  rw [hw]
  obtain ⟨h1, h2, h3, h4, h5, h6, h7, h8, h9, h10, h11, h12, h13, h14⟩ := hl
  constructor <;> first | assumption | (dsimp only; omega) | skip
  · intro j hj1 hj2
    exact h8 j hj1 (by dsimp only at hj2; omega)
  · intro ho
    obtain ⟨o1, o2, o3, o4⟩ := h13 ho
    refine ⟨o1, o2, o3, ?_⟩
    dsimp only
    rw [o4]; split <;> omega

theorem checkIAcked_keep {m ph W A V R q} {c : Chan} (hm : m = 8 ∨ m = 128) (h : K m ph W A V R q c) (hi : c.inChans = true) (ha : A ≤ W.length) :
    K m ph W A V R q (checkIAcked c (A % m)) := by
  unfold checkIAcked
  have := updateVa_keep hm h hi ha
  repeat' split
  all_goals first | assumption | skip

theorem checkRspNeeded_keep {m ph W A V R q} {c : Chan} (h : K m ph W A V R q c) (hp : ph ≠ .opening) (pf ic) :
    K m ph W A V R q (checkRspNeeded c pf ic) := by
  unfold checkRspNeeded
  repeat' split
  · exact h.ack' (fun _ => hp) _ _
  · exact h.same rfl rfl
  · exact h.same rfl rfl
  · exact h
  · exact h

theorem markPresent_slots {ww : Nat} {sel : Bool} : ∀ {n pos : Nat} {wr wr' : List WSlot}, markPresent ww sel n pos wr = some wr' →
    ∀ (i : Nat) (d : WSlot), wr[i]? = some d → ∃ d', wr'[i]? = some d' ∧ d'.seq = d.seq ∧ d'.pid = d.pid ∧ d'.data = d.data ∧ d'.len = d.len := by
  intro n
  induction n with
  | zero => intro pos wr wr' h i d hd; simp [markPresent] at h; subst h; exact ⟨d, hd, rfl, rfl, rfl, rfl⟩
  | succ n ih =>
    intro pos wr wr' h i d hd
    unfold markPresent at h
    cases hx : wr[pos]? with
    | none => rw [hx] at h; cases h
    | some x =>
      rw [hx] at h
      dsimp only at h
      have hset : ∃ d', (wr.set pos { x with present := true })[i]? = some d' ∧ d'.seq = d.seq ∧ d'.pid = d.pid ∧ d'.data = d.data ∧ d'.len = d.len := by
        by_cases hpi : pos = i
        · subst hpi
          rw [hx] at hd; cases hd
          obtain ⟨hlt, _⟩ := List.getElem?_eq_some_iff.1 hx
          exact ⟨_, List.getElem?_set_self hlt, rfl, rfl, rfl, rfl⟩
        · exact ⟨d, by rw [List.getElem?_set_ne hpi]; exact hd, rfl, rfl, rfl, rfl⟩
      split at h
      · cases h; exact hset
      · obtain ⟨d1, g1, g2, g3, g4, g5⟩ := hset
        obtain ⟨d2, f1, f2, f3, f4, f5⟩ := ih h i d1 g1
        exact ⟨d2, f1, f2.trans g2, f3.trans g3, f4.trans g4, f5.trans g5⟩

theorem rewindSeq_keep {m ph W A V R q} {c c' : Chan} {nr : Nat} {sel : Bool} (h : K m ph W A V R q c) (hp : ph ≠ .opening)
    (e : rewindSeq c nr sel = some c') : K m ph W A V R q c' ∧ c'.inChans = c.inChans := by
  unfold rewindSeq at e
  dsimp only at e
  split at e
  · cases e
  · split at e
    · cases e
    · rename_i wr hwr
      cases e
      refine ⟨⟨⟨h.rl, fun hi => ?_, h.qb⟩, h.ir⟩, rfl⟩
      have hi' : c.inChans = true := hi
      obtain ⟨h1, h2, h3, h4, h5, h6, h7, h8, h9, h10, h11, h12, h13, h14⟩ := h.live hi'
      constructor <;> first | assumption | (intro ho; exact absurd ho hp) | skip
      intro j hj1 hj2
      obtain ⟨d, g1, g2, g3⟩ := h8 j hj1 hj2
      obtain ⟨d', f1, f2, f3, f4, f5⟩ := markPresent_slots hwr _ _ g1
      exact ⟨d', f1, f2.trans g2, by rw [f3, f4, f5]; exact g3⟩

end Gensio.Ax25
