import Verif.Lemmas.MuxRecv

/-!
# Two muxes joined by a reliable byte stream
-/

namespace Gensio.Mux

/-! ## What was received is a part of what was sent -/

theorem asum_append (r : Nat) (a b : List Dat) : asum r (a ++ b) = asum r a + asum r b := by simp [asum]
theorem dsum_append (r : Nat) (a b : List Dat) : dsum r (a ++ b) = dsum r a + dsum r b := by simp [dsum]
theorem fr_append (r : Nat) (a b : List Dat) : fr r (a ++ b) = fr r a ++ fr r b := by simp [fr]

/-- `n` bytes of `out` were read: the messages `inn` and `k` bytes of `x`. -/
structure Link (log : List Dat) (out : List UInt8) (inn : List Dat) (x : Dat) (k n : Nat) : Prop where
  split : ∃ l, log = inn ++ l ∧ (0 < k → ∃ l', l = x :: l')
  cnt : n = (inn.flatMap (fun y => y.msg.bytes)).length + k
  le : n ≤ out.length

theorem Link.grow {log log' : List Dat} {out out' : List UInt8} {inn : List Dat} {x : Dat} {k n : Nat}
    (h : Link log out inn x k n) (h1 : log <+: log') (h2 : out <+: out') : Link log' out' inn x k n := by
  obtain ⟨l, e, e2⟩ := h.split
  obtain ⟨t, ht⟩ := h1
  refine ⟨⟨l ++ t, by rw [← ht, e, List.append_assoc], fun hk => ?_⟩, h.cnt, Nat.le_trans h.le h2.length_le⟩
  obtain ⟨l', e3⟩ := e2 hk
  exact ⟨l' ++ t, by rw [e3]; rfl⟩

/-- How the channels of the two ends belong together. -/
structure Pr (A B : Par) (i j : Nat) : Prop where
  id : A.id i = B.rid j
  rid : A.rid i = B.id j
  winA : A.win i ≤ B.mr
  winB : B.win j ≤ A.mr
  usA : B.u j ≤ A.s i
  usB : A.u i ≤ B.s j
  oobA : A.po i = true → B.oob j = true
  oobB : B.po j = true → A.oob i = true

theorem Pr.symm {A B : Par} {i j : Nat} (h : Pr A B i j) : Pr B A j i :=
  ⟨h.rid.symm, h.id.symm, h.winB, h.winA, h.usB, h.usA, h.oobB, h.oobA⟩

structure Match (A B : Par) : Prop where
  left : ∀ i < A.n, ∃ j < B.n, Pr A B i j
  right : ∀ j < B.n, ∃ i < A.n, Pr A B i j

theorem Match.symm {A B : Par} (h : Match A B) : Match B A :=
  ⟨fun i hi => by obtain ⟨j, hj, hp⟩ := h.right i hi; exact ⟨j, hj, hp.symm⟩,
   fun i hi => by obtain ⟨j, hj, hp⟩ := h.left i hi; exact ⟨j, hj, hp.symm⟩⟩

/-- A session between two muxes: `a` has read `na` bytes of the other end, and `b` `nb` bytes.  With `z`, nothing was
unacknowledged at the start. -/
def Session (z : Bool) (a b : Mux) (na nb : Nat) : Prop :=
  ∃ logA QA innA xA kA RA PA logB QB innB xB kB RB PB,
    Side a logA QA innA xA kA RA PA ∧ Side b logB QB innB xB kB RB PB ∧ a.state = .opened ∧ b.state = .opened
    ∧ Link logB b.out innA xA kA na ∧ Link logA a.out innB xB kB nb ∧ Match PA PB
    ∧ (z = true → ∀ i, PA.s i = 0 ∧ PB.s i = 0)

theorem Session.symm {z : Bool} {a b : Mux} {na nb : Nat} (h : Session z a b na nb) : Session z b a nb na := by
  obtain ⟨logA, QA, innA, xA, kA, RA, PA, logB, QB, innB, xB, kB, RB, PB, h1, h2, h3, h4, h5, h6, h7, h8⟩ := h
  exact ⟨logB, QB, innB, xB, kB, RB, PB, logA, QA, innA, xA, kA, RA, PA, h2, h1, h4, h3, h6, h5, h7.symm, fun e i => ⟨(h8 e i).2, (h8 e i).1⟩⟩

/-! ## Receiving -/

section
variable {m : Mux} {log : List Dat} {Q : Nat → List Frame} {inn : List Dat} {x : Dat} {k n : Nat} {R : Nat → List Frame}
  {P : Par} {out : List UInt8}

/-- What a channel received is no more than what was sent. -/
theorem Link.received (h : Link log out inn x k n) (hk : k < 10 + x.d.length) (id : Nat) :
    dsum id inn + (part id x k).length ≤ dsum id log := by
  obtain ⟨l, e, e2⟩ := h.split
  rw [e, dsum_append]
  unfold part
  split
  · rename_i hx
    obtain ⟨l', e3⟩ := e2 (by omega)
    have : dsum id l = (x.d.length + 3) + dsum id l' := by
      rw [e3, show x :: l' = [x] ++ l' from rfl, dsum_append]
      congr 1
      simp only [dsum, List.map_cons, List.map_nil, List.sum_cons, List.sum_nil]
      rw [if_pos ⟨hx.1, by intro z; rw [z] at hk; simp at hk; omega⟩]
      omega
    simp only [List.length_cons, List.length_append, be16_length, List.length_take]
    omega
  · simp only [List.length_nil]; omega

theorem Link.acked (h : Link log out inn x k n) (id : Nat) : asum id (hin inn x k) ≤ asum id log := by
  obtain ⟨l, e, e2⟩ := h.split
  unfold hin
  split
  · obtain ⟨l', e3⟩ := e2 (by omega)
    rw [e, e3, show inn ++ x :: l' = (inn ++ [x]) ++ l' by simp, asum_append id (inn ++ [x]) l']
    omega
  · rw [e, asum_append]; omega

/-- There is a next message when not everything was read. -/
theorem Link.next (h : Link log out inn x k n) (hs : Side m log' Q inn x k R P) (hn : n < out.length)
    (ho : out.length ≤ (log.flatMap (fun y => y.msg.bytes)).length) :
    ∃ x' l, log = inn ++ x' :: l ∧ Link log out inn x' k n ∧ Side m log' Q inn x' k R P := by
  obtain ⟨l, e, e2⟩ := h.split
  by_cases hk : 0 < k
  · obtain ⟨l', e3⟩ := e2 hk
    exact ⟨x, l', by rw [e, e3], h, hs⟩
  · have hk : k = 0 := by omega
    subst hk
    have h1 := h.cnt
    cases l with
    | nil =>
      exfalso
      rw [List.append_nil] at e
      subst e
      omega
    | cons y l => exact ⟨y, l, e, ⟨⟨_, e, fun z => absurd z (by omega)⟩, h.cnt, h.le⟩, hs.choose y⟩

theorem Link.byte (h : Link log out inn x k n) {l : List Dat} (e : log = inn ++ x :: l) (hn : n < out.length)
    (hk : k < 10 + x.d.length) {rest : List UInt8} (ho : out ++ rest = log.flatMap (fun y => y.msg.bytes)) :
    out.getD n 0 = x.msg.bytes.getD k 0 := by
  have h1 : out.getD n 0 = (out ++ rest).getD n 0 := by
    rw [List.getD_eq_getElem?_getD, List.getD_eq_getElem?_getD, List.getElem?_append_left hn]
  rw [h1, ho, e, List.flatMap_append, List.flatMap_cons, h.cnt, List.getD_eq_getElem?_getD, List.getD_eq_getElem?_getD,
    List.getElem?_append_right (by omega), List.getElem?_append_left (by rw [Dat.len]; omega)]
  congr 2
  omega

end

theorem flatMap_msg (l : List Dat) : (l.map Dat.msg).flatMap Msg.bytes = l.flatMap (fun y => y.msg.bytes) := by
  rw [List.flatMap_map]

/-- Any byte of the other end can be read. -/
theorem Session.recv {z : Bool} {a b : Mux} {na nb : Nat} (h : Session z a b na nb) (hn : na < b.out.length) (e : Env) :
    ∃ a', a.rxByte (b.out.getD na 0) e = some a' ∧ Session z a' b (na + 1) nb := by
  obtain ⟨logA, QA, innA, x0, kA, RA, PA, logB, QB, innB, xB, kB, RB, PB, h1, h2, h3, h4, h5, h6, h7, h8⟩ := h
  have hfr := h2.tx.frame
  rw [flatMap_msg] at hfr
  obtain ⟨x, l, e1, h5, h1⟩ := h5.next h1 hn (by rw [← hfr, List.length_append]; omega)
  have hkx := h1.rest.kx
  rw [h5.byte e1 hn hkx hfr]
  obtain ⟨⟨j, d, hd, hr⟩, hxa, hxd⟩ := h2.rest.logC x (by rw [e1]; simp)
  have hds := h2.rest.chan j d hd
  have hdt := h2.rest.stat j d hd
  obtain ⟨i, hi, hp⟩ := h7.right j (by rw [← h2.rest.count]; exact lt_of_get hd)
  rw [← h1.rest.count] at hi
  have hc : a.chans[i]? = some a.chans[i] := List.getElem?_eq_getElem hi
  generalize a.chans[i] = c at hc
  have hcs := h1.rest.chan i c hc
  have hct := h1.rest.stat i c hc
  have hid : c.id = d.remoteId := by rw [hct.id, hdt.rid, hp.id]
  have hrid : c.remoteId = d.id := by rw [hct.rid, hdt.id, hp.rid]
  have hw1 := hp.winB
  have hw2 := hp.usA
  have hw3 := hp.usB
  have hmr := h1.rest.par
  have hwd := hds.win
  rw [hdt.win] at hwd
  obtain ⟨a', g1, g2⟩ := h1.recv h3 hc (hid.trans hr.symm) hxa hxd
    (by
      intro hk
      have k1 := hcs.sent
      have k2 := hds.recv
      have k3 := h6.received h2.rest.kx d.id
      rw [hin_lt (by omega)] at k1
      rw [hid, hrid] at k1
      have k4 : asum d.remoteId logB = asum d.remoteId innA + (x.a + asum d.remoteId l) := by
        rw [e1, asum_append]
        congr 1
        simp only [asum, List.map_cons, List.sum_cons]
        rw [if_pos hr]
      omega)
    (by
      intro hk hne
      have k1 := hcs.recv
      have k2 := hds.sent
      have k3 := h6.acked d.id
      rw [part_early (by omega), hid, hrid] at k1
      simp only [List.length_nil] at k1
      have k4 : dsum d.remoteId logB = dsum d.remoteId innA + ((x.d.length + 3) + dsum d.remoteId l) := by
        rw [e1, dsum_append]
        congr 1
        simp only [dsum, List.map_cons, List.sum_cons]
        rw [if_pos ⟨hr, hne⟩]
      omega)
    (by
      intro hk hof
      refine hct.oob (hp.oobB (hdt.acc (x.f, x.d) ?_ hof))
      rw [hds.acc]
      refine List.mem_append_left _ ?_
      simp only [fr, List.mem_flatMap]
      refine ⟨x, by rw [e1]; simp, ?_⟩
      rw [if_pos ⟨hr, by intro z; rw [z] at hkx; simp at hkx; omega⟩]
      simp) e
  refine ⟨a', g1, ?_⟩
  by_cases hl : kA + 1 < 10 + x.d.length
  · obtain ⟨R, hR⟩ := g2.more hl
    refine ⟨logA, QA, innA, x, kA + 1, R, PA, logB, QB, innB, xB, kB, RB, PB, hR, h2, g2.st, h4, ?_, by rw [g2.out]; exact h6,
      h7, h8⟩
    exact ⟨⟨x :: l, e1, fun _ => ⟨l, rfl⟩⟩, by rw [h5.cnt]; omega, hn⟩
  · obtain ⟨R, hR⟩ := g2.done (by omega)
    refine ⟨logA, QA, innA ++ [x], x, 0, R, PA, logB, QB, innB, xB, kB, RB, PB, hR x, h2, g2.st, h4, ?_,
      by rw [g2.out]; exact h6, h7, h8⟩
    refine ⟨⟨l, by rw [e1]; simp, fun z => absurd z (by omega)⟩, ?_, hn⟩
    rw [h5.cnt, List.flatMap_append, List.length_append]
    simp only [List.flatMap_cons, List.flatMap_nil, List.append_nil, Dat.len]
    omega

/-! ## The calls of the user -/

theorem Session.quiet {z : Bool} {a a' b : Mux} {na nb : Nat} (h : Session z a b na nb)
    (hs : ∀ log Q inn x k R P, Side a log Q inn x k R P → ∃ R', Side a' log Q inn x k R' P)
    (h1 : a'.state = a.state) (h2 : a'.out = a.out) : Session z a' b na nb := by
  obtain ⟨logA, QA, innA, xA, kA, RA, PA, logB, QB, innB, xB, kB, RB, PB, k1, k2, k3, k4, k5, k6, k7, k8⟩ := h
  obtain ⟨R', hR⟩ := hs _ _ _ _ _ _ _ k1
  exact ⟨logA, QA, innA, xA, kA, R', PA, logB, QB, innB, xB, kB, RB, PB, hR, k2, by rw [h1]; exact k3, k4, k5,
    by rw [h2]; exact k6, k7, k8⟩

theorem Session.side {z : Bool} {a b : Mux} {na nb : Nat} (h : Session z a b na nb) : ∃ log Q inn x k R P, Side a log Q inn x k R P := by
  obtain ⟨logA, QA, innA, xA, kA, RA, PA, logB, QB, innB, xB, kB, RB, PB, k1, k2, k3, k4, k5, k6, k7, k8⟩ := h
  exact ⟨_, _, _, _, _, _, _, k1⟩

theorem Session.readEnable {z : Bool} {a b : Mux} {na nb : Nat} (h : Session z a b na nb) {i : Nat} (hi : i < a.chans.length) (en : Bool) :
    ∃ a', a.readEnable i en = some a' ∧ Session z a' b na nb := by
  have hc : a.chans[i]? = some a.chans[i] := List.getElem?_eq_getElem hi
  obtain ⟨log, Q, inn, x, k, R, P, hs⟩ := h.side
  obtain ⟨a', e, -, e2, e3⟩ := hs.readEnable hc en
  refine ⟨a', e, h.quiet (fun log Q inn x k R P hs => ?_) e2 e3⟩
  obtain ⟨a2, f, f1, -, -⟩ := hs.readEnable hc en
  rw [e] at f
  rw [Option.some.inj f]
  exact ⟨R, f1⟩

theorem Session.setOob {z : Bool} {a b : Mux} {na nb : Nat} (h : Session z a b na nb) {i : Nat} (hi : i < a.chans.length) :
    ∃ a', a.setOob i true = some a' ∧ Session z a' b na nb := by
  have hc : a.chans[i]? = some a.chans[i] := List.getElem?_eq_getElem hi
  obtain ⟨log, Q, inn, x, k, R, P, hs⟩ := h.side
  obtain ⟨a', e, -, e2, e3⟩ := hs.setOob hc
  refine ⟨a', e, h.quiet (fun log Q inn x k R P hs => ?_) e2 e3⟩
  obtain ⟨a2, f, f1, -, -⟩ := hs.setOob hc
  rw [e] at f
  rw [Option.some.inj f]
  exact ⟨R, f1⟩

theorem Session.deferred {z : Bool} {a b : Mux} {na nb : Nat} (h : Session z a b na nb) {i : Nat} (hi : i < a.chans.length)
    (ans : List Ans) : ∃ a', a.deferred i ans = some a' ∧ Session z a' b na nb := by
  have hc : a.chans[i]? = some a.chans[i] := List.getElem?_eq_getElem hi
  obtain ⟨log, Q, inn, x, k, R, P, hs⟩ := h.side
  obtain ⟨a', -, e, -, e2, e3⟩ := hs.deferred hc ans
  refine ⟨a', e, h.quiet (fun log Q inn x k R P hs => ?_) e2 e3⟩
  obtain ⟨a2, R', f, f1, -, -⟩ := hs.deferred hc ans
  rw [e] at f
  rw [Option.some.inj f]
  exact ⟨R', f1⟩

theorem Session.writeReady {z : Bool} {a b : Mux} {na nb : Nat} (h : Session z a b na nb) (ans : List (Option Nat))
    (ha : ∀ x ∈ ans, x.isSome = true) : ∃ a', a.writeReady ans = some a' ∧ Session z a' b na nb := by
  obtain ⟨logA, QA, innA, xA, kA, RA, PA, logB, QB, innB, xB, kB, RB, PB, k1, k2, k3, k4, k5, k6, k7, k8⟩ := h
  obtain ⟨a', log', Q', e, e1, e2, e3, e4⟩ := k1.writeReady ans ha
  exact ⟨a', e, log', Q', innA, xA, kA, RA, PA, logB, QB, innB, xB, kB, RB, PB, e3, k2, by rw [e4]; exact k3, k4, k5,
    k6.grow e1 e2, k7, k8⟩

/-- Changing where out of band data may be used. -/
theorem Side.par {m : Mux} {log : List Dat} {Q : Nat → List Frame} {inn : List Dat} {x : Dat} {k : Nat}
    {R : Nat → List Frame} {P : Par} (h : Side m log Q inn x k R P) (f g : Nat → Bool)
    (hf : ∀ i c, m.chans[i]? = some c → f i = true → c.doOob = true) (hg : ∀ i, P.po i = true → g i = true) :
    Side m log Q inn x k R { P with oob := f, po := g } := by
  refine ⟨h.tx, h.svc, ?_⟩
  exact ⟨h.rest.xm, h.rest.count, h.rest.par, fun i c hc => ⟨(h.rest.stat i c hc).id, (h.rest.stat i c hc).rid,
    (h.rest.stat i c hc).win, hf i c hc, fun y hy ho => hg i ((h.rest.stat i c hc).acc y hy ho)⟩, h.rest.hdr, h.rest.wsize,
    h.rest.mw, h.rest.mr, h.rest.find, h.rest.rids, h.rest.chan, h.rest.logC, h.rest.kx, h.rest.xOk, h.rest.parse⟩

theorem Session.write {z : Bool} {a b : Mux} {na nb : Nat} (h : Session z a b na nb) {i : Nat} {c : Chan} (hc : a.chans[i]? = some c)
    (sg : List (List UInt8)) (eom oob : Bool)
    (ho : oob = true → ∃ (j : Nat) (d : Chan), b.chans[j]? = some d ∧ d.id = c.remoteId ∧ d.doOob = true) :
    ∃ a' r, a.write i sg eom oob = some (a', r) ∧ Session z a' b na nb := by
  obtain ⟨logA, QA, innA, xA, kA, RA, PA, logB, QB, innB, xB, kB, RB, PB, k1, k2, k3, k4, k5, k6, k7, k8⟩ := h
  cases oob with
  | false =>
    obtain ⟨a', r, q, e, e1, e2, e3, -⟩ := k1.write hc sg eom false (by intro z; cases z)
    exact ⟨a', r, e, logA, _, innA, xA, kA, RA, PA, logB, QB, innB, xB, kB, RB, PB, e1, k2, by rw [e2]; exact k3, k4, k5,
      by rw [e3]; exact k6, k7, k8⟩
  | true =>
    obtain ⟨j, d, hd, hid, hdo⟩ := ho rfl
    have hct := k1.rest.stat i c hc
    have hdt := k2.rest.stat j d hd
    have k1' := k1.par PA.oob (fun i' => PA.po i' || decide (i' = i)) (fun i' c' h' => (k1.rest.stat i' c' h').oob)
      (fun i' h' => by simp [h'])
    have k2' := k2.par (fun j' => PB.oob j' || decide (j' = j)) PB.po (by
      intro j' d' hd' ho'
      rcases (Bool.or_eq_true _ _).mp ho' with ho' | ho'
      · exact (k2.rest.stat j' d' hd').oob ho'
      · have : j' = j := by simpa using ho'
        subst this
        rw [hd] at hd'
        rw [← Option.some.inj hd']; exact hdo) (fun _ h => h)
    have hpr : ∀ i' j', j' < PB.n → Pr PA PB i' j' → Pr { PA with oob := PA.oob, po := fun i' => PA.po i' || decide (i' = i) }
        { PB with oob := fun j' => PB.oob j' || decide (j' = j), po := PB.po } i' j' := by
      intro i' j' hj' hp
      refine ⟨hp.id, hp.rid, hp.winA, hp.winB, hp.usA, hp.usB, ?_, hp.oobB⟩
      intro hpo
      simp only [Bool.or_eq_true, decide_eq_true_eq] at hpo ⊢
      rcases hpo with hpo | hpo
      · exact Or.inl (hp.oobA hpo)
      · right
        rw [← k2.rest.count] at hj'
        have hd' : b.chans[j']? = some b.chans[j'] := List.getElem?_eq_getElem hj'
        have hdt' := k2.rest.stat j' _ hd'
        have e1 := k2.rest.find j' _ hd'
        have e2 := k2.rest.find j d hd
        have : b.chans[j'].id = d.id := by
          rw [hdt'.id, hid, hct.rid, ← hp.rid, hpo]
        rw [this, e2] at e1
        exact (Option.some.inj e1).symm
    have k7' : Match { PA with oob := PA.oob, po := fun i' => PA.po i' || decide (i' = i) }
        { PB with oob := fun j' => PB.oob j' || decide (j' = j), po := PB.po } := by
      refine ⟨?_, ?_⟩
      · intro i' hi'
        obtain ⟨j', hj', hp⟩ := k7.left i' hi'
        exact ⟨j', hj', hpr i' j' hj' hp⟩
      · intro j' hj'
        obtain ⟨i', hi', hp⟩ := k7.right j' hj'
        exact ⟨i', hi', hpr i' j' hj' hp⟩
    obtain ⟨a', r, q, e, e1, e2, e3, -⟩ := k1'.write hc sg eom true (by intro _; simp)
    exact ⟨a', r, e, logA, _, innA, xA, kA, RA, _, logB, QB, innB, xB, kB, RB, _, e1, k2', by rw [e2]; exact k3, k4, k5,
      by rw [e3]; exact k6, k7', k8⟩

end Gensio.Mux
