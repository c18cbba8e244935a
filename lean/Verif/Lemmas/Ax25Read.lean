import Verif.Lemmas.Ax25Link

/-!
The read side of a channel: what is stored is what is delivered.
-/
namespace Gensio.Ax25

theorem K0.busy {m ph W A V R q} {c : Chan} (h : K0 m ph W A V R q c) (hp : c.inChans = true → ph ≠ .opening) (b : Bool) :
    K0 m ph W A V R q { c with ownBsy := b } := by
  refine ⟨h.rl, fun hi => ?_, h.qb⟩
  have hi' : c.inChans = true := hi
  obtain ⟨h1, h2, h3, h4, h5, h6, h7, h8, h9, h10, h11, h12, h13, h14⟩ := h.live hi'
  constructor <;> first | assumption | (intro h; exact absurd h (hp hi'))

theorem K0.ack {m ph W A V R q} {c : Chan} (h : K0 m ph W A V R q c) (hp : c.inChans = true → ph ≠ .opening) (pf ic : Bool) :
    K0 m ph W A V R q (sendAck c pf ic) :=
  h.of (by simp) fun hi => (h.cmds hi).sendAck (hp hi) pf ic

theorem checkBusy_keep {m ph W A V R q} {c : Chan} (h : K0 m ph W A V R q c) :
    K0 m ph W A V R q (checkBusy c) ∧ (checkBusy c).inRead = c.inRead ∧ rcore (checkBusy c) = rcore c ∧ (checkBusy c).inChans = c.inChans := by
  have fields : ∀ c : Chan, ∀ pf ic, (sendAck c pf ic).inRead = c.inRead ∧ rcore (sendAck c pf ic) = rcore c ∧ (sendAck c pf ic).inChans = c.inChans :=
    fun c pf ic => ⟨inRead_ecore (ecore_sendAck ..), rcore_ecore (ecore_sendAck ..), inChans_ecore (ecore_sendAck ..)⟩
  unfold checkBusy
  split
  · rename_i hb
    have hp : c.inChans = true → ph ≠ .opening := by
      intro hi ho
      have := (h.live hi).op ho
      omega
    exact ⟨(h.busy hp true).ack hp _ _, fields _ _ _⟩
  · split
    · rename_i hb
      have hp : c.inChans = true → ph ≠ .opening := by
        intro hi ho
        have := ((h.live hi).op ho).1
        simp [hb.1] at this
      have h1 := (h.busy hp false).ack hp true true
      have f := fields { c with ownBsy := false } true true
      generalize sendAck { c with ownBsy := false } true true = c1 at *
      exact ⟨h1.of rfl (fun hi => h1.cmds hi), f⟩
    · exact ⟨h, rfl, rfl, rfl⟩

theorem rxFinish_keep {m ph W A V q} {c : Chan} (hm : m = 8 ∨ m = 128) (h : K0 m ph W A V V q c) (hp : c.inChans = true → ph ≠ .opening) (pf : Bool) :
    K0 m ph W A (V + 1) (V + 1) q (rxFinish c pf) ∧ (rxFinish c pf).inRead = c.inRead ∧ rcore (rxFinish c pf) = rcore c ∧
      (rxFinish c pf).inChans = c.inChans := by
  have h1 : K0 m ph W A (V + 1) (V + 1) q { c with vr := addSeq c.vr 1 c.modulo } := by
    refine ⟨h.rl, fun hi => ?_, h.qb⟩
    have hi' : c.inChans = true := hi
    have hl := h.live hi'
    have e : addSeq c.vr 1 c.modulo = (V + 1) % m := by
      rw [hl.vr, hl.md, addSeq_mod (by omega) (Nat.mod_lt _ (by omega)) (by omega), Nat.mod_add_mod]
    have hpn := hl.pnd
    obtain ⟨h1, h2, h3, h4, h5, h6, h7, h8, h9, h10, h11, h12, h13, h14⟩ := hl
    constructor <;> first | assumption | skip
    show V + 1 + pend c = V + 1
    omega
  have fields : ∀ c : Chan, ∀ pf ic, (sendAck c pf ic).inRead = c.inRead ∧ rcore (sendAck c pf ic) = rcore c ∧ (sendAck c pf ic).inChans = c.inChans :=
    fun c pf ic => ⟨inRead_ecore (ecore_sendAck ..), rcore_ecore (ecore_sendAck ..), inChans_ecore (ecore_sendAck ..)⟩
  unfold rxFinish
  dsimp only
  split
  · exact ⟨h1.ack hp _ _, fields _ _ _⟩
  · split
    · exact ⟨h1.ack hp _ _, fields _ _ _⟩
    · exact ⟨h1.of rfl (fun hi => h1.cmds hi), rfl, rfl, rfl⟩

theorem K0.any {m ph W A V R q} {c : Chan} (h : K0 m ph W A V R q c) (hi : c.inChans = false) (A' V' R') : K0 m ph W A' V' R' q c :=
  ⟨h.rl, fun h' => by simp [hi] at h', h.qb⟩

theorem pend_none {c : Chan} (h : c.inRead = none) : pend c = 0 := by simp [pend, h]

theorem readExit_keep {m ph W A V R q} {c : Chan} (hm : m = 8 ∨ m = 128) (h : K0 m ph W A V R q c) (hv : V ≤ R) (hr : c.inRead.isSome) :
    ∃ V', V ≤ V' ∧ V' ≤ R ∧ K m ph W A V' R q (readExit c) ∧ (readExit c).inRead = none ∧ rcore (readExit c) = rcore c ∧
      (readExit c).inChans = c.inChans := by
  obtain ⟨⟨idx, rx⟩, hr⟩ := Option.isSome_iff_exists.1 hr
  unfold readExit
  rw [hr]
  dsimp only
  cases rx with
  | none =>
    have h1 : K0 m ph W A V R q { c with inRead := none } := by
      refine ⟨h.rl, fun hi => ?_, h.qb⟩
      have hi' : c.inChans = true := hi
      have hl := h.live hi'
      have hpc : pend c = 0 := by simp [pend, hr]
      have hpn := hl.pnd
      obtain ⟨h1, h2, h3, h4, h5, h6, h7, h8, h9, h10, h11, h12, h13, h14⟩ := hl
      constructor <;> first | assumption | skip
      · rw [pend_none rfl]; omega
      · intro ho; obtain ⟨o1, o2, o3, o4⟩ := h13 ho; exact ⟨o1, o2, rfl, o4⟩
    obtain ⟨b1, b2, b3, b4⟩ := checkBusy_keep h1
    dsimp only
    exact ⟨V, Nat.le_refl _, hv, ⟨b1, by rw [b2]; simp⟩, b2, b3, b4⟩
  | some pf =>
    dsimp only
    by_cases hi : c.inChans = true
    · have hl := h.live hi
      have hpc : pend c = 1 := by simp [pend, hr]
      have hpn := hl.pnd
      have hno : ph ≠ .opening := by intro ho; have := (hl.op ho).2.2.1; omega
      have h1 : K0 m ph W A V V q { c with inRead := none } := by
        refine ⟨h.rl, fun _ => ?_, h.qb⟩
        obtain ⟨h1, h2, h3, h4, h5, h6, h7, h8, h9, h10, h11, h12, h13, h14⟩ := hl
        constructor <;> first | assumption | skip
        · rw [pend_none rfl]; omega
        · intro ho; exact absurd ho hno
      obtain ⟨b1, b2, b3, b4⟩ := checkBusy_keep h1
      obtain ⟨f1, f2, f3, f4⟩ := rxFinish_keep hm b1 (fun _ => hno) pf
      have hn : (rxFinish (checkBusy { c with inRead := none }) pf).inRead = none := by rw [f2, b2]
      refine ⟨V + 1, by omega, by omega, ⟨by rw [← hpn, hpc]; exact f1, by rw [hn]; simp⟩, hn, f3.trans b3, f4.trans b4⟩
    · have hi : c.inChans = false := by simpa using hi
      have h1 : K0 m ph W A V V q { c with inRead := none } := ⟨h.rl, fun h' => by simp [hi] at h', h.qb⟩
      obtain ⟨b1, b2, b3, b4⟩ := checkBusy_keep h1
      have hb : (checkBusy { c with inRead := none }).inChans = false := b4.trans hi
      obtain ⟨f1, f2, f3, f4⟩ := rxFinish_keep hm b1 (fun h' => by rw [hb] at h'; cases h') pf
      have hn : (rxFinish (checkBusy { c with inRead := none }) pf).inRead = none := by rw [f2, b2]
      exact ⟨V, Nat.le_refl _, hv, ⟨f1.any (f4.trans hb) _ _ _, by rw [hn]; simp⟩, hn, f3.trans b3, f4.trans b4⟩

theorem readLoop_keep {m ph W A V R q} {c : Chan} (hm : m = 8 ∨ m = 128) (h : K0 m ph W A V R q c) (hv : V ≤ R) (hr : c.inRead.isSome) :
    ∃ V', V ≤ V' ∧ V' ≤ R ∧ K m ph W A V' R q (readLoop c) ∧ rcore (readLoop c) = rcore c ∧ (readLoop c).inChans = c.inChans := by
  have drop : ∀ {c' : Chan}, (∃ V', V ≤ V' ∧ V' ≤ R ∧ K m ph W A V' R q c' ∧ c'.inRead = none ∧ rcore c' = rcore c ∧ c'.inChans = c.inChans) →
      ∃ V', V ≤ V' ∧ V' ≤ R ∧ K m ph W A V' R q c' ∧ rcore c' = rcore c ∧ c'.inChans = c.inChans := by
    rintro c' ⟨V', a, b, c, _, d⟩; exact ⟨V', a, b, c, d⟩
  unfold readLoop
  split
  · split
    · have h1 : K0 m ph W A V R q { c with readEnabled := false } := h.of rfl (fun hi => h.cmds hi)
      exact drop (readExit_keep hm h1 hv hr)
    · split
      · rename_i hlen
        obtain ⟨⟨idx, rx⟩, hr⟩ := Option.isSome_iff_exists.1 hr
        rw [hr]
        refine ⟨V, Nat.le_refl _, hv, ⟨⟨h.rl, fun hi => ?_, h.qb⟩, ?_⟩, rfl, rfl⟩
        · have hi' : c.inChans = true := hi
          have hl := h.live hi'
          have hp : pend { c with inRead := some ⟨c.readPos, rx⟩ } = pend c := by cases rx <;> simp [pend, hr]
          obtain ⟨h1, h2, h3, h4, h5, h6, h7, h8, h9, h10, h11, h12, h13, h14⟩ := hl
          constructor <;> first | assumption | skip
          · exact (congrArg (V + ·) hp).trans h10
          · intro ho; obtain ⟨o1, o2, o3, o4⟩ := h13 ho; exact ⟨o1, o2, hp.trans o3, o4⟩
        · intro r hr'
          simp at hr'
          subst hr'
          exact ⟨rfl, hlen⟩
      · exact drop (readExit_keep hm h hv hr)
  · exact drop (readExit_keep hm h hv hr)

theorem deferred_keep {m ph W A V R q} {c : Chan} (hm : m = 8 ∨ m = 128) (h : K m ph W A V R q c) (hv : V ≤ R) :
    ∃ V', V ≤ V' ∧ V' ≤ R ∧ K m ph W A V' R q (deliverRead c none) ∧ (deliverRead c none).inChans = c.inChans := by
  unfold deliverRead
  cases hr : c.inRead with
  | some r =>
    dsimp only
    obtain ⟨b1, b2, b3, b4⟩ := checkBusy_keep h.toK0
    simp only [rcore, Prod.mk.injEq] at b3
    exact ⟨V, Nat.le_refl _, hv, ⟨b1, by rw [b2, b3.2.2.1, b3.2.2.2]; exact h.ir⟩, b4⟩
  | none =>
    dsimp only
    have h1 : K0 m ph W A V R q { c with inRead := some ⟨c.readPos, none⟩ } := by
      refine ⟨h.rl, fun hi => ?_, h.qb⟩
      have hi' : c.inChans = true := hi
      have hp : pend { c with inRead := some ⟨c.readPos, none⟩ } = pend c := by simp [pend, hr]
      obtain ⟨h1, h2, h3, h4, h5, h6, h7, h8, h9, h10, h11, h12, h13, h14⟩ := h.live hi'
      constructor <;> first | assumption | skip
      · exact (congrArg (V + ·) hp).trans h10
      · intro ho; obtain ⟨o1, o2, o3, o4⟩ := h13 ho; exact ⟨o1, o2, hp.trans o3, o4⟩
    obtain ⟨V', a, b, d, _, e⟩ := readLoop_keep hm h1 hv rfl
    exact ⟨V', a, b, d, e⟩

/-- The end of the queue of packets is where a new one is stored. -/
theorem qb_store {c : Chan} (h0 : 0 < c.conf.readwindow) (hl : c.rd.length = c.conf.readwindow) (hlen : c.readLen < c.conf.readwindow) (d : RSlot) (f : Chan → Chan)
    (hf : rcore (f c) = (c.conf, c.rd.set ((c.readPos + c.readLen) % c.conf.readwindow) d, c.readPos, c.readLen + 1)) :
    qb (f c) = qb c ++ d.rest.map (d.pid, ·) := by
  simp only [rcore, Prod.mk.injEq] at hf
  have e : rq (f c) = rq c ++ [d] := by
    unfold rq
    rw [hf.1, hf.2.1, hf.2.2.1, hf.2.2.2, List.range_succ, List.map_append]
    congr 1
    · apply List.map_congr_left
      intro j hj
      have hj : j < c.readLen := List.mem_range.1 hj
      rw [List.getElem?_set_ne]
      intro he
      have := mod_inj he (by omega) (by omega)
      omega
    · simp only [List.map_cons, List.map_nil]
      rw [List.getElem?_set_self (by rw [hl]; exact Nat.mod_lt _ h0)]
      rfl
  unfold qb
  rw [e, List.flatMap_append]
  simp

theorem rq_cons {c : Chan} (hlen : 0 < c.readLen) (hp : c.readPos < c.conf.readwindow) {d : RSlot} (hd : c.rd[c.readPos]? = some d) :
    rq c = d :: (List.range (c.readLen - 1)).map fun j => c.rd[(c.readPos + (j + 1)) % c.conf.readwindow]?.getD ⟨[], 0⟩ := by
  unfold rq
  obtain ⟨n, hn⟩ : ∃ n, c.readLen = n + 1 := ⟨c.readLen - 1, by omega⟩
  rw [hn, List.range_succ_eq_map, List.map_cons, List.map_map]
  congr 1
  rw [Nat.add_zero, Nat.mod_eq_of_lt hp, hd]; rfl

/-- A packet partly read. -/
theorem qb_part {c c' : Chan} (hlen : 0 < c.readLen) (hle : c.readLen ≤ c.conf.readwindow) (hl : c.rd.length = c.conf.readwindow) (hp : c.readPos < c.conf.readwindow)
    {d : RSlot} (hd : c.rd[c.readPos]? = some d) (n : Nat)
    (hf : rcore c' = (c.conf, c.rd.set c.readPos { d with rest := d.rest.drop n }, c.readPos, c.readLen)) :
    qb c = (d.rest.take n).map (d.pid, ·) ++ qb c' := by
  simp only [rcore, Prod.mk.injEq] at hf
  have e' : rq c' = { d with rest := d.rest.drop n } :: (List.range (c.readLen - 1)).map fun j => c.rd[(c.readPos + (j + 1)) % c.conf.readwindow]?.getD ⟨[], 0⟩ := by
    rw [rq_cons (c := c') (by rw [hf.2.2.2]; exact hlen) (by rw [hf.2.2.1, hf.1]; exact hp) (d := { d with rest := d.rest.drop n })
      (by rw [hf.2.1, hf.2.2.1, List.getElem?_set_self (by omega)])]
    congr 1
    rw [hf.1, hf.2.1, hf.2.2.1, hf.2.2.2]
    apply List.map_congr_left
    intro j hj
    have hj := List.mem_range.1 hj
    rw [List.getElem?_set_ne]
    intro he
    have he : c.readPos % c.conf.readwindow = (c.readPos + (j + 1)) % c.conf.readwindow := by rw [Nat.mod_eq_of_lt hp]; exact he
    have := mod_inj he (by omega) (by omega)
    omega
  unfold qb
  rw [rq_cons hlen hp hd, e']
  simp only [List.flatMap_cons]
  rw [← List.append_assoc, ← List.map_append, List.take_append_drop]

/-- A packet read to its end. -/
theorem qb_next {c c' : Chan} (hlen : 0 < c.readLen) (hle : c.readLen ≤ c.conf.readwindow) (hp : c.readPos < c.conf.readwindow)
    {d : RSlot} (hd : c.rd[c.readPos]? = some d) (hf : rcore c' = (c.conf, c.rd, (c.readPos + 1) % c.conf.readwindow, c.readLen - 1)) :
    qb c = d.rest.map (d.pid, ·) ++ qb c' := by
  simp only [rcore, Prod.mk.injEq] at hf
  have e' : rq c' = (List.range (c.readLen - 1)).map fun j => c.rd[(c.readPos + (j + 1)) % c.conf.readwindow]?.getD ⟨[], 0⟩ := by
    unfold rq
    rw [hf.1, hf.2.1, hf.2.2.1, hf.2.2.2]
    apply List.map_congr_left
    intro j _
    rw [Nat.mod_add_mod, Nat.add_assoc, Nat.add_comm 1 j]
  unfold qb
  rw [rq_cons hlen hp hd, e']
  simp only [List.flatMap_cons]

end Gensio.Ax25
