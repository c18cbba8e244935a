import Verif.Lemmas.Ax25Unn

/-!
What the events of its own side keep of a channel.
-/
namespace Gensio.Ax25

theorem sendSabm_keep {m ph W A V R q} {c : Chan} (hm : m = 8 ∨ m = 128) (hs : Safe c) (h : K m ph W A V R q c) (hp : ph ≠ .peerOpening) :
    K m ph W A V R q (sendSabm c) := by
  refine h.of (by simp) fun hi => ?_
  have hx := (h.live hi).ex
  have he := hs.ext
  unfold sendSabm
  rw [if_neg (by omega)]
  split
  · exact (h.cmds hi).sendCr (cmd := .unn .sabme) ⟨hx.1 (by assumption), rfl, hp⟩ _ _
  · exact (h.cmds hi).sendCr (cmd := .unn .sabm) ⟨by omega, rfl, hp⟩ _ _

theorem t1_keep {m ph W A V R q} {c c' : Chan} (hm : m = 8 ∨ m = 128) (hs : Safe c) (h : K m ph W A V R q c) (e : t1 c = some c') :
    K m ph W A V R q c' := by
  have hst : c.inChans = true → (c.state = .inOpen ↔ ph = .opening) := fun hi => (h.live hi).st
  unfold t1 at e
  split at e <;> rename_i hs1
  · have hi : c.inChans = true := hs.live.2 (by simp [hs1])
    have hp := (hst hi).1 hs1
    split at e
    · exact (h.out' (f := fun c => { c with err := geTimedout, state := .closed }) rfl rfl e).1
    · cases e
      exact sendSabm_keep (c := { c with retryCount := c.retryCount + 1 }) hm (hs.of rfl) (h.same rfl rfl) (by rw [hp]; simp)
  · have hno := fun hi => h.notOpening hi (by rw [hs1]; simp)
    split at e
    · split at e
      · exact h.errClosed e ⟨rcore_ecore (ecore_sendRsp c (.unn .dm) true), inRead_ecore (ecore_sendRsp c (.unn .dm) true)⟩
      · cases e
        exact K.ack' (c := { c with retryCount := c.retryCount + 1 }) (h.same rfl rfl) hno _ _
    · cases e
      exact K.ack' (c := { c with retryCount := 1, pollPending := true }) (h.same rfl rfl) hno _ _
  · have hno := fun hi => h.notOpening hi (by rw [hs1]; simp)
    split at e
    · split at e
      · exact h.errClosed e ⟨rcore_ecore (ecore_sendRsp c (.unn .dm) true), inRead_ecore (ecore_sendRsp c (.unn .dm) true)⟩
      · cases e
        exact K.ack' (c := { c with retryCount := c.retryCount + 1 }) (h.same rfl rfl) hno _ _
    · cases e
      exact K.ack' (c := { c with retryCount := 1, pollPending := true }) (h.same rfl rfl) hno _ _
  · have hno := fun hi => h.notOpening hi (by rw [hs1]; simp)
    split at e
    · exact h.closed e (.e rfl)
    · cases e
      exact K.cmd (c := { c with retryCount := c.retryCount + 1 }) (cmd := .unn .disc) (h.same rfl rfl) hno _
  · cases e; exact h

theorem t2_keep {m ph W A V R q} {c : Chan} (h : K m ph W A V R q c) : K m ph W A V R q (t2 c) := by
  unfold t2
  split <;> rename_i hs
  · split
    · exact h.ack' (fun hi => h.notOpening hi (by rw [hs]; simp)) _ _
    · exact h
  · split
    · exact h.ack' (fun hi => h.notOpening hi (by rw [hs]; simp)) _ _
    · exact h
  · exact h

theorem t3_keep {m ph W A V R q} {c : Chan} (h : K m ph W A V R q c) : K m ph W A V R q (t3 c) := by
  unfold t3
  split <;> rename_i hs
  · exact K.ack' (c := { c with retryCount := 0 }) (h.same rfl rfl) (fun hi => h.notOpening hi (by rw [hs]; simp)) _ _
  · exact h

theorem childErr_keep {m ph W A V R q} {c c' : Chan} {er : Nat} (h : K m ph W A V R q c) (e : childErr c er = some c') : K m ph W A V R q c' := by
  unfold childErr at e
  split at e
  · exact h.errClosed e (.e rfl)
  · cases e; exact h

theorem close_keep {m ph W A V R q} {c c' : Chan} {n : Nat} (hs : Safe c) (h : K m ph W A V R q c) (e : close c = some (c', n)) : K m ph W A V R q c' := by
  unfold close at e
  split at e <;> rename_i hs1
  · cases e; exact h
  · cases e; exact h
  · cases e; exact h
  · cases e; exact h
  · cases e; exact h
  · cases e; exact h.setState (fun hi => h.notOpening hi (by rw [hs1]; simp)) (by simp)
  · cases e; exact h.setState (fun hi => h.notOpening hi (by rw [hs1]; simp)) (by simp)
  · cases hd : moveToClosed { sendCmd { c with retryCount := 0, err := geLocalclosed } (.unn .dm) true with state := .reportClose } with
    | none => rw [hd] at e; cases e
    | some x =>
      rw [hd] at e; cases e
      exact (h.out' (f := fun _ => { sendCmd { c with retryCount := 0, err := geLocalclosed } (.unn .dm) true with state := .reportClose })
        ((rcore_ecore (ecore_sendCmd { c with retryCount := 0, err := geLocalclosed } (.unn .dm) true)).trans rfl)
        ((inRead_ecore (ecore_sendCmd { c with retryCount := 0, err := geLocalclosed } (.unn .dm) true)).trans rfl) hd).1
  · have hi : c.inChans = true := hs.live.2 (by simp [hs1])
    have hp := h.notOpening hi (by rw [hs1]; simp)
    split at e
    · cases e
      exact (K.ack' (c := { c with retryCount := 1, pollPending := true }) (h.same rfl rfl) (fun _ => hp) _ _).setState (fun _ => hp) (by simp)
    · cases e
      have h1 : K m ph W A V R q { c with retryCount := 0 } := h.same rfl rfl
      have h2 : K m ph W A V R q (if c.ackPending ≠ 0 then sendAck { c with retryCount := 0 } false false else { c with retryCount := 0 }) := by
        split
        · exact h1.ack' (fun _ => hp) _ _
        · exact h1
      exact (h2.cmd (cmd := .unn .disc) (fun _ => hp) true).setState (fun _ => hp) (by simp)

theorem fin_keep {m ph W A V R q} {c : Chan} (hs : Safe c) (h : K m ph W A V R q c) :
    K m ph W A V R q (fin c) ∨ ((fin c).inChans = false ∧ K m ph W A V R [] (fin c)) := by
  unfold fin
  split
  · rename_i hc
    have hi : c.inChans = false := by
      cases hx : c.inChans with
      | false => rfl
      | true => have := hs.live.1 hx; simp [hc.1] at this
    refine .inr ⟨hi, ⟨⟨Nat.zero_le _, fun h' => ?_, ?_⟩, ?_⟩⟩
    · have : c.inChans = true := h'
      simp [hi] at this
    · simp [qb, rq, resetData]
    · intro r hr
      have : c.inRead = some r := hr
      simp [hc.2] at this
  · exact .inl h

theorem skipCmdrsp_keep {m ph W A V R q} {c c' : Chan} (h : K m ph W A V R q c) (e : skipCmdrsp c = some c') : K m ph W A V R q c' := by
  unfold skipCmdrsp at e
  dsimp only at e
  split at e
  · exact h.errClosed e (.e rfl)
  · exact h.closed e (.e rfl)
  · cases e
    exact h.of rfl fun hi x hx => h.cmds hi x (List.mem_of_mem_tail hx)

/-- The frame sent for an entry of the command queue. -/
theorem crFrame_ok {m ph W A V R q} {c : Chan} (hs : Safe c) (h : K m ph W A V R q c) (hi : c.inChans = true) {e : CmdRsp} (he : e ∈ c.cmdrsp)
    {f : Frame} (hf : crFrame c e = some f) : frAllowed m ph f ∧ NewOk m W V f := by
  have hl := h.live hi
  have ha := hl.cmds e he
  unfold crFrame at hf
  split at hf <;> rename_i hc
  · rw [hc] at ha
    split at hf
    · cases hf; exact ⟨ha, hl.vr⟩
    · split at hf
      · cases hf
      · cases hf; exact ⟨ha, hl.vr⟩
  · rw [hc] at ha
    cases hf
    exact ⟨⟨ha.1, ha.2, c.conf, hs.rw0, hs.rw1, rfl⟩, trivial⟩
  · rename_i k hk
    rw [hc] at ha
    cases hf
    refine ⟨?_, trivial⟩
    cases k <;> first | exact ha | exact absurd rfl (hk · )

theorem K.slot {m ph W A V R q} {c : Chan} (h : K m ph W A V R q c) {pos : Nat} {d : WSlot} (hd : c.wr[pos]? = some d) (b : Bool) :
    K m ph W A V R q { c with wr := c.wr.set pos { d with present := b } } := by
  refine ⟨⟨h.rl, fun hi => ?_, h.qb⟩, h.ir⟩
  have hi' : c.inChans = true := hi
  obtain ⟨h1, h2, h3, h4, h5, h6, h7, h8, h9, h10, h11, h12, h13, h14⟩ := h.live hi'
  constructor <;> first | assumption | skip
  intro j hj1 hj2
  obtain ⟨x, x1, x2, x3⟩ := h8 j hj1 hj2
  dsimp only
  by_cases hp : pos = subSeq c.writePos j c.conf.writewindow
  · rw [← hp] at x1 ⊢
    rw [hd] at x1; cases x1
    obtain ⟨hlt, _⟩ := List.getElem?_eq_some_iff.1 hd
    exact ⟨_, List.getElem?_set_self hlt, x2, x3⟩
  · exact ⟨x, by rw [List.getElem?_set_ne hp]; exact x1, x2, x3⟩

theorem K.less {m ph W A V R q} {c : Chan} (h : K m ph W A V R q c) : K m ph W A V R q { c with sendLen := c.sendLen - 1 } := by
  refine ⟨⟨h.rl, fun hi => ?_, h.qb⟩, h.ir⟩
  have hi' : c.inChans = true := hi
  obtain ⟨h1, h2, h3, h4, h5, h6, h7, h8, h9, h10, h11, h12, h13, h14⟩ := h.live hi'
  constructor <;> first | assumption | skip
  intro ho
  obtain ⟨a, b, c, d⟩ := h13 ho
  exact ⟨a, b, c, by dsimp only; omega⟩

theorem tx_keep {m ph W A V R q} {c c' : Chan} {r : LlRes} {o : Option Frame} (hs : Safe c) (h : K m ph W A V R q c) (e : tx c r = some (c', o)) :
    K m ph W A V R q c' ∧ ∀ f, o = some f → frAllowed m ph f ∧ NewOk m W V f := by
  have map2 : ∀ {x : Option Chan} {b : Option Frame}, x.map (·, b) = some (c', o) → x = some c' ∧ o = b := by
    intro x b hx
    cases x with
    | none => cases hx
    | some y => cases hx; exact ⟨rfl, rfl⟩
  unfold tx at e
  split at e
  · cases e; exact ⟨h, by simp⟩
  · rename_i hni
    have hi : c.inChans = true := by cases hx : c.inChans <;> simp_all
    have hl := h.live hi
    split at e
    · rename_i en rest hq
      have hmem : en ∈ c.cmdrsp := by rw [hq]; simp
      split at e
      · obtain ⟨e1, rfl⟩ := map2 e
        exact ⟨skipCmdrsp_keep h e1, by simp⟩
      · rename_i f hf
        have hok := crFrame_ok hs h hi hmem hf
        cases r with
        | full =>
          obtain ⟨e1, rfl⟩ := map2 e
          exact ⟨skipCmdrsp_keep h e1, by intro f' hf'; cases hf'; exact hok⟩
        | zero => cases e; exact ⟨h, by simp⟩
        | part => obtain ⟨e1, rfl⟩ := map2 e; exact ⟨childErr_keep h e1, by simp⟩
        | fail n => obtain ⟨e1, rfl⟩ := map2 e; exact ⟨childErr_keep h e1, by simp⟩
    · split at e
      · rename_i hsend
        dsimp only at e
        have hsl := hs.slen
        have hp : ph ≠ .opening := fun ho => by have := (hl.op ho).2.2.2; omega
        obtain ⟨d, hd, hseq, hw⟩ := hl.slots c.sendLen (by omega) hsl
        rw [hd] at e
        dsimp only at e
        split at e
        · cases e; exact ⟨h.less, by simp⟩
        · have h1 : K m ph W A V R q { c with dataPSent := c.dataPSent || decide (subSeq c.vs c.va c.modulo ≥ c.writewindow), ackPending := 0 } := h.same rfl rfl
          cases r with
          | fail n => obtain ⟨e1, rfl⟩ := map2 e; exact ⟨childErr_keep h1 e1, by simp⟩
          | zero => cases e; exact ⟨h1, by simp⟩
          | part =>
            obtain ⟨e1, rfl⟩ := map2 e
            exact ⟨childErr_keep (h1.slot hd false) e1, by simp⟩
          | full =>
            have h2 := (h1.slot hd false).less
            dsimp only at e h2
            have hwl := hl.wl; have hwm := hl.wlm
            have hnew : NewOk m W V (.info c.vr d.seq (decide (subSeq c.vs c.va c.modulo ≥ c.writewindow)) true (d.pid :: d.data.take d.len)) :=
              ⟨hl.vr, W.length - c.sendLen, (d.pid, d.data.take d.len), by omega, by omega, hseq, hw, rfl⟩
            split at e
            · cases e
              refine ⟨?_, by intro f hf; cases hf; exact ⟨hp, hnew⟩⟩
              refine K.ack' ?_ (fun _ => hp) _ _
              exact h2.same rfl rfl
            · cases e
              exact ⟨h2, by intro f hf; cases hf; exact ⟨hp, hnew⟩⟩
      · cases e; exact ⟨h, by simp⟩

theorem subSeq_mod' {a b w : Nat} (hw : w ≤ 128) (ha : a < w) (hb : b ≤ w) : subSeq a b w = (a + w - b) % w := by
  rcases Nat.lt_or_ge b w with h | h
  · exact subSeq_mod hw ha h
  · have : b = w := by omega
    subst this
    rw [Nat.add_sub_cancel, Nat.mod_eq_of_lt ha]
    unfold subSeq u8
    rw [if_pos (by omega)]; omega

theorem write_keep {m ph W A V R q} {c c' : Chan} {sg : List (List UInt8)} {pid : UInt8} {er n : Nat} (hm : m = 8 ∨ m = 128) (hs : Safe c)
    (h : K m ph W A V R q c) (hf : sg.dropLast.flatten.length ≤ c.maxWrite) (e : write c sg pid = some (c', er, n)) :
    (c' = c ∧ n = 0) ∨ (c.inChans = true ∧ K m ph (W ++ [(pid, sg.flatten.take n)]) A V R q c') := by
  by_cases hst : c.state = .opn
  · by_cases hw : c.writeLen < c.writewindow
    · right
      have hi : c.inChans = true := hs.live.2 (by simp [hst])
      have hl := h.live hi
      refine ⟨hi, ?_⟩
      obtain ⟨b, hb, he⟩ := write_exact hs hst hw hf pid
      rw [he] at e
      cases e
      refine ⟨⟨h.rl, fun _ => ?_, h.qb⟩, h.ir⟩
      have b1 := hs.wwin; have b2 := hs.wpos; have b3 := hs.ww1; have b4 := hs.wrl; have b5 := hs.ww0
      have hp1 : addSeq c.writePos 1 c.conf.writewindow = (c.writePos + 1) % c.conf.writewindow := addSeq_mod (by omega) b2 (by omega)
      obtain ⟨h1, h2, h3, h4, h5, h6, h7, h8, h9, h10, h11, h12, h13, h14⟩ := hl
      constructor <;> (try dsimp only) <;> first | assumption | skip
      · omega
      · rw [h5, h1, addSeq_mod (by omega) (Nat.mod_lt _ (by omega)) (by omega), List.length_append, List.length_singleton, Nat.mod_add_mod]
      · rw [List.length_append, List.length_singleton]; omega
      · rw [List.length_append, List.length_singleton]; omega
      · intro j hj1 hj2
        rw [hp1, subSeq_mod' (by omega) (Nat.mod_lt _ (by omega)) (by omega)]
        by_cases hj : j = 1
        · subst hj
          rw [mod_back (by omega), Nat.mod_eq_of_lt b2]
          refine ⟨_, List.getElem?_set_self (by omega), ?_, ?_⟩
          · rw [List.length_append, List.length_singleton, Nat.add_sub_cancel]; exact h5
          · rw [List.length_append, List.length_singleton, Nat.add_sub_cancel, List.getElem?_append_right (Nat.le_refl _)]
            simp only [Nat.sub_self, List.getElem?_cons_zero]
            exact congrArg (fun x => some (pid, x)) hb.symm
        · obtain ⟨d, d1, d2, d3⟩ := h8 (j - 1) (by omega) (by omega)
          rw [subSeq_mod (by omega) b2 (by omega)] at d1
          have hpos : ((c.writePos + 1) % c.conf.writewindow + c.conf.writewindow - j) % c.conf.writewindow =
              (c.writePos + c.conf.writewindow - (j - 1)) % c.conf.writewindow := by
            rcases Nat.lt_or_ge (c.writePos + 1) c.conf.writewindow with hlt | hge
            · rw [Nat.mod_eq_of_lt hlt]; congr 1; omega
            · have : c.writePos + 1 = c.conf.writewindow := by omega
              rw [this, Nat.mod_self, show c.writePos + c.conf.writewindow - (j - 1) = (c.conf.writewindow - j) + c.conf.writewindow by omega, Nat.add_mod_right,
                Nat.zero_add]
          rw [hpos]
          have hne : c.writePos ≠ (c.writePos + c.conf.writewindow - (j - 1)) % c.conf.writewindow := by
            rcases Nat.lt_or_ge c.writePos (j - 1) with hlt | hge
            · rw [Nat.mod_eq_of_lt (by omega)]; omega
            · rw [show c.writePos + c.conf.writewindow - (j - 1) = (c.writePos - (j - 1)) + c.conf.writewindow by omega, Nat.add_mod_right, Nat.mod_eq_of_lt (by omega)]; omega
          refine ⟨d, by rw [List.getElem?_set_ne hne]; exact d1, ?_, ?_⟩
          · rw [List.length_append, List.length_singleton, d2]; congr 1; omega
          · rw [List.length_append, List.length_singleton, List.getElem?_append_left (by omega), ← d3]; congr 1; omega
      · intro ho
        exact absurd (h12.2 ho) (by rw [hst]; simp)
    · left
      unfold write at e
      dsimp only at e
      rw [if_neg (by simp [hst]), if_pos (by omega)] at e
      cases e; exact ⟨rfl, rfl⟩
  · left
    unfold write at e
    dsimp only at e
    rw [if_pos hst] at e
    cases e; exact ⟨rfl, rfl⟩

end Gensio.Ax25
