import Verif.Lemmas.MuxPair

/-!
# C32 and C33: two muxes joined by a reliable byte stream

The two ends are the model of `lib/gensio_mux.c`; the children are a reliable stream of bytes in each direction that may
split and delay what is written at will.  `Item`, `items` and `callItems` (Verif/Lemmas/MuxRx.lean) say what a write puts on
a channel and what a read callback takes off it: bytes with their out of band mark, and ends of messages.
-/

namespace Gensio.Mux

/-! ## The session -/

/-- Two muxes; `a` has read `na` of the bytes `b` wrote to its child, and `b` has read `nb`. -/
structure Pair where
  a : Mux
  b : Mux
  na : Nat := 0
  nb : Nat := 0
deriving Repr

/-- What can happen: a call at one of the ends, or one more byte arrives there. -/
inductive POp
  | left (op : Op)
  | right (op : Op)
  | toLeft (e : Env)
  | toRight (e : Env)

def Pair.step (p : Pair) : POp → Option Pair
  | .left op => (p.a.step op).map (fun a => { p with a := a })
  | .right op => (p.b.step op).map (fun b => { p with b := b })
  | .toLeft e =>
    if p.na < p.b.out.length then (p.a.rxByte (p.b.out.getD p.na 0) e).map (fun a => { p with a := a, na := p.na + 1 })
    else some p
  | .toRight e =>
    if p.nb < p.a.out.length then (p.b.rxByte (p.a.out.getD p.nb 0) e).map (fun b => { p with b := b, nb := p.nb + 1 })
    else some p

def Pair.run (p : Pair) : List POp → Option Pair
  | [] => some p
  | op :: ops =>
    match p.step op with
    | none => none
    | some p => p.run ops

/-- The calls of a user who neither opens nor closes channels and who sends out of band data only to a channel that takes
it; the child never fails. -/
def Allowed (m peer : Mux) : Op → Bool
  | .write i _ _ oob =>
    match m.chans[i]? with
    | none => false
    | some c => !oob || peer.chans.any (fun d => d.id == c.remoteId && d.doOob)
  | .readEnable i _ => decide (i < m.chans.length)
  | .oob i en => en && decide (i < m.chans.length)
  | .deferred i _ => decide (i < m.chans.length)
  | .writeReady ans => ans.all Option.isSome
  | _ => false

def Pair.allowed (p : Pair) : POp → Bool
  | .left op => Allowed p.a p.b op
  | .right op => Allowed p.b p.a op
  | _ => true

/-- Every call of the history is allowed when it is made. -/
def Pair.fair (p : Pair) : List POp → Bool
  | [] => true
  | op :: ops =>
    p.allowed op &&
    match p.step op with
    | none => true
    | some p => p.fair ops

/-- A channel that is open and at rest. -/
def FreshChan (m : Mux) (c : Chan) : Prop :=
  c.linked = true ∧ c.state = .opened ∧ c.err = 0 ∧ c.sendNew = false ∧ c.sendClose = false ∧ c.closeSent = false
    ∧ c.id < 65536 ∧ c.service.length < 65536
    ∧ c.rd.len = 0 ∧ c.rd.pos < c.rd.data.length ∧ c.rd.data.length = m.maxRead
    ∧ c.wr.len = 0 ∧ c.wr.pos < c.wr.data.length ∧ c.wr.data.length = m.maxWrite
    ∧ c.sg = [] ∧ c.curLen = 0 ∧ c.wrReady = false ∧ c.inWrlist = false ∧ c.acc = [] ∧ c.calls = []

/-- A mux whose channels are all open and at rest, with an empty history. -/
def Fresh (m : Mux) : Prop :=
  m.state = .opened ∧ m.xmit = [] ∧ m.xmitPos = 0 ∧ m.sending = none ∧ m.wrchans = [] ∧ m.inHdr = true ∧ m.hdrPos = 0
    ∧ m.hdr.length = 12 ∧ m.out = [] ∧ m.maxWrite ≤ 65538 ∧ m.maxRead < 4294967296
    ∧ (m.chans.map Chan.id).Nodup ∧ (m.chans.map Chan.remoteId).Nodup ∧ ∀ c ∈ m.chans, FreshChan m c

/-- Two ends of one channel: they know each other's number and window, and neither has more to acknowledge than the other
waits for. -/
def Ends (a b : Mux) (c d : Chan) : Prop :=
  c.id = d.remoteId ∧ c.remoteId = d.id ∧ c.window ≤ b.maxRead ∧ d.window ≤ a.maxRead
    ∧ d.recvUnacked ≤ c.sentUnacked ∧ c.sentUnacked ≤ c.window ∧ c.recvUnacked ≤ d.sentUnacked ∧ d.sentUnacked ≤ d.window

/-- Every channel has its other end. -/
def Joined (a b : Mux) : Prop :=
  (∀ c ∈ a.chans, ∃ d ∈ b.chans, Ends a b c d) ∧ ∀ d ∈ b.chans, ∃ c ∈ a.chans, Ends a b c d

instance (m : Mux) (c : Chan) : Decidable (FreshChan m c) := by unfold FreshChan; infer_instance
instance (m : Mux) : Decidable (Fresh m) := by unfold Fresh; infer_instance
instance (a b : Mux) (c d : Chan) : Decidable (Ends a b c d) := by unfold Ends; infer_instance
instance (a b : Mux) : Decidable (Joined a b) := by unfold Joined; infer_instance

/-- What the user wrote to a channel. -/
def written (c : Chan) : List Item := c.acc.flatMap items
/-- What the user took from a channel. -/
def received (c : Chan) : List Item := c.calls.flatMap callItems

/-! ## Start -/

theorem nodup_inj {l : List Chan} {f : Chan → Nat} (hn : (l.map f).Nodup) {i j : Nat} {c d : Chan} (hc : l[i]? = some c)
    (hd : l[j]? = some d) (e : f c = f d) : i = j := by
  obtain ⟨h1, h3⟩ := List.getElem?_eq_some_iff.mp hc
  obtain ⟨h2, h4⟩ := List.getElem?_eq_some_iff.mp hd
  have h := List.pairwise_iff_getElem.mp hn
  have k1 : i < (l.map f).length := by rw [List.length_map]; exact h1
  have k2 : j < (l.map f).length := by rw [List.length_map]; exact h2
  rcases Nat.lt_trichotomy i j with hij | hij | hij
  · exact absurd (by rw [List.getElem_map, List.getElem_map, h3, h4, e]) (h i j k1 k2 hij)
  · exact hij
  · exact absurd (by rw [List.getElem_map, List.getElem_map, h3, h4, e]) (h j i k2 k1 hij)

theorem nodup_find {m : Mux} (hl : ∀ c ∈ m.chans, c.linked = true) (hn : (m.chans.map Chan.id).Nodup) {i : Nat} {c : Chan}
    (hc : m.chans[i]? = some c) : m.find c.id = some i := by
  rw [Mux.find, List.findIdx?_eq_some_iff_getElem]
  obtain ⟨h1, h2⟩ := List.getElem?_eq_some_iff.mp hc
  refine ⟨h1, by rw [h2, hl c (List.mem_of_getElem? hc)]; simp, ?_⟩
  intro j hj
  simp only [Bool.and_eq_true, beq_iff_eq, not_and]
  intro _ he
  have := nodup_inj hn (List.getElem?_eq_getElem (show j < m.chans.length by omega)) hc he
  omega

/-- The constants of a fresh mux. -/
def Mux.par (m : Mux) : Par :=
  { n := m.chans.length, mr := m.maxRead
    id := fun i => (m.chans[i]?.map Chan.id).getD 0
    rid := fun i => (m.chans[i]?.map Chan.remoteId).getD 0
    win := fun i => (m.chans[i]?.map Chan.window).getD 0
    s := fun i => (m.chans[i]?.map Chan.sentUnacked).getD 0
    u := fun i => (m.chans[i]?.map Chan.recvUnacked).getD 0
    oob := fun _ => false, po := fun _ => false }

theorem Fresh.side {m : Mux} (h : Fresh m)
    (hw : ∀ c ∈ m.chans, c.sentUnacked ≤ c.window ∧ c.recvUnacked ≤ m.maxRead) :
    Side m [] (fun _ => []) [] ⟨0, 0, 0, []⟩ 0 (fun _ => []) m.par := by
  obtain ⟨h1, h2, h3, h4, h5, h6, h7, h8, h9, h10, h11, h12, h13, h14⟩ := h
  have hm : ∀ (i : Nat) (c : Chan), m.chans[i]? = some c → FreshChan m c := fun i c hc => h14 c (List.mem_of_getElem? hc)
  refine ⟨⟨?_, ?_, ?_, ?_, ?_, ?_, ?_, ?_, Or.inl ⟨h2, h3⟩, fun h => absurd h3 h, ?_, ?_⟩, ?_, ?_⟩
  · intro i c hc
    obtain ⟨-, -, -, -, -, -, -, -, -, -, -, c12, c13, c14, c15, c16, -⟩ := hm i c hc
    refine ⟨⟨[], by rw [c16]; rfl, ⟨c13, c12, Nat.zero_le _, fun j hj => absurd hj (by simp)⟩⟩, ?_, ?_, ?_, fun _ => c16⟩
    · intro f hf; cases hf
    · intro o l hs; rw [c15] at hs; cases hs
    · intro s hs; rw [c15] at hs; cases hs
  · intro i c hc
    obtain ⟨-, -, -, -, -, -, -, -, -, -, -, c12, c13, c14, c15, c16, -⟩ := hm i c hc
    rw [c15, h4]; simp
  · intro i hi; rw [h4] at hi; cases hi
  · intro i c hc
    obtain ⟨-, -, -, -, -, -, -, -, -, -, -, c12, c13, c14, c15, c16, c17, c18, -⟩ := hm i c hc
    rw [c17, h4, h5]; simp
  · intro i c hc
    obtain ⟨-, -, -, -, -, -, -, -, -, -, -, c12, c13, c14, c15, c16, c17, c18, -⟩ := hm i c hc
    rw [c18, h5]; simp
  · intro i hi; rw [h4] at hi; cases hi
  · rw [h5]; exact List.nodup_nil
  · intro i hi; rw [h5] at hi; cases hi
  · rw [h9, cur_idle h4 h3]; rfl
  · intro x hx; cases hx
  · intro i c hc
    exact (hm i c hc).2.2.2.2.2.2.2.1
  · refine ⟨h2, rfl, rfl, ?_, h8, ?_, h10, h11, ?_, ?_, ?_, ?_, by omega, ?_, ?_⟩
    · intro i c hc
      refine ⟨?_, ?_, ?_, ?_, ?_⟩
      · simp [Mux.par, hc]
      · simp [Mux.par, hc]
      · simp [Mux.par, hc]
      · intro z; cases z
      · obtain ⟨-, -, -, -, -, -, -, -, -, -, -, c12, c13, c14, c15, c16, c17, c18, c19, c20⟩ := hm i c hc
        rw [c19]; intro f hf; cases hf
    · intro i c hc
      obtain ⟨-, -, -, -, -, -, -, -, -, -, -, c12, c13, c14, -⟩ := hm i c hc
      exact c14
    · intro i c hc
      exact nodup_find (fun c hc => (h14 c hc).1) h12 hc
    · intro i j c d hc hd e
      exact nodup_inj h13 hc hd e
    · intro i c hc
      obtain ⟨w1, w2⟩ := hw c (List.mem_of_getElem? hc)
      obtain ⟨c1, c2, c3, c4, c5, c6, c7, c8, c9, c10, c11, c12, c13, c14, c15, c16, c17, c18, c19, c20⟩ := hm i c hc
      refine ⟨c2, c3, c4, c5, c6, c7, c19, ?_, w1, ⟨c10, by rw [c9]; simp [part], by simp [part], fun j hj => absurd hj (by
        simp [part])⟩, ?_, ?_, ?_, ?_, c11, ?_⟩
      · simp [Mux.par, hc, hin, asum, dsum]
      · intro f hf; cases hf
      · intro f hf; cases hf
      · simp [Mux.par, hc, asum, dsum, part, c9]
      · simp only [c9, Mux.rest, part]; simpa using w2
      · rw [c20]; rfl
    · intro y hy; cases hy
    · intro z; omega
    · refine ⟨fun _ => ⟨h6, h7⟩, ?_, ?_, ?_, ?_, ?_⟩ <;> intros <;> omega

theorem Fresh.session {a b : Mux} (ha : Fresh a) (hb : Fresh b) (hj : Joined a b) (z : Bool)
    (hz : z = true → (∀ c ∈ a.chans, c.sentUnacked = 0) ∧ ∀ d ∈ b.chans, d.sentUnacked = 0) : Session z a b 0 0 := by
  have hla : ∀ c ∈ a.chans, c.sentUnacked ≤ c.window ∧ c.recvUnacked ≤ a.maxRead := by
    intro c hc
    obtain ⟨d, -, -, -, e1, e2, e3, e4, e5, e6⟩ := hj.1 c hc
    exact ⟨e4, by omega⟩
  have hlb : ∀ d ∈ b.chans, d.sentUnacked ≤ d.window ∧ d.recvUnacked ≤ b.maxRead := by
    intro d hd
    obtain ⟨c, -, -, -, e1, e2, e3, e4, e5, e6⟩ := hj.2 d hd
    exact ⟨e6, by omega⟩
  have hpr : ∀ (i j : Nat) (c d : Chan), a.chans[i]? = some c → b.chans[j]? = some d → Ends a b c d → Pr a.par b.par i j := by
    intro i j c d hc hd ⟨e1, e2, e3, e4, e5, e6, e7, e8⟩
    refine ⟨?_, ?_, ?_, ?_, ?_, ?_, fun z => (by cases z), fun z => (by cases z)⟩ <;> simp [Mux.par, hc, hd] <;> assumption
  refine ⟨[], _, [], _, 0, _, _, [], _, [], _, 0, _, _, ha.side hla, hb.side hlb, ha.1, hb.1,
    ⟨⟨[], rfl, fun z => absurd z (by omega)⟩, rfl, Nat.zero_le _⟩,
    ⟨⟨[], rfl, fun z => absurd z (by omega)⟩, rfl, Nat.zero_le _⟩, ⟨?_, ?_⟩, ?_⟩
  · intro i hi
    have hi : i < a.chans.length := hi
    obtain ⟨d, hd, he⟩ := hj.1 a.chans[i] (List.getElem_mem hi)
    obtain ⟨j, hjl, hjd⟩ := List.getElem_of_mem hd
    exact ⟨j, hjl, hpr i j _ d (List.getElem?_eq_getElem hi) (by rw [List.getElem?_eq_getElem hjl, hjd]) he⟩
  · intro j hjl
    have hjl : j < b.chans.length := hjl
    obtain ⟨c, hc, he⟩ := hj.2 b.chans[j] (List.getElem_mem hjl)
    obtain ⟨i, hil, hic⟩ := List.getElem_of_mem hc
    exact ⟨i, hil, hpr i j c _ (by rw [List.getElem?_eq_getElem hil, hic]) (List.getElem?_eq_getElem hjl) he⟩
  · intro e
    have key : ∀ (m : Mux), (∀ c ∈ m.chans, c.sentUnacked = 0) → ∀ i, m.par.s i = 0 := by
      intro m hm i
      simp only [Mux.par]
      cases hc : m.chans[i]? with
      | none => rfl
      | some c => exact hm c (List.mem_of_getElem? hc)
    exact fun i => ⟨key a (hz e).1 i, key b (hz e).2 i⟩

/-! ## Histories -/

theorem Session.op {z : Bool} {a b : Mux} {na nb : Nat} (h : Session z a b na nb) {op : Op} (ha : Allowed a b op = true) :
    ∃ a', a.step op = some a' ∧ Session z a' b na nb := by
  cases op with
  | alloc _ _ => cases ha
  | opn _ => cases ha
  | close _ => cases ha
  | recv _ _ => cases ha
  | write i sg eom oob =>
    rw [Allowed] at ha
    cases hc : a.chans[i]? with
    | none => rw [hc] at ha; cases ha
    | some c =>
      rw [hc] at ha
      simp only [Bool.or_eq_true, Bool.not_eq_true', List.any_eq_true, Bool.and_eq_true, beq_iff_eq] at ha
      obtain ⟨a', r, e, hs⟩ := h.write hc sg eom oob (by
        intro ho
        rcases ha with ha | ⟨d, hd, h1, h2⟩
        · rw [ho] at ha; cases ha
        · obtain ⟨j, hj, hjd⟩ := List.getElem_of_mem hd
          exact ⟨j, d, by rw [List.getElem?_eq_getElem hj, hjd], h1, h2⟩)
      exact ⟨a', by rw [Mux.step, e], hs⟩
  | readEnable i en => exact h.readEnable (of_decide_eq_true ha) en
  | oob i en =>
    rw [Allowed, Bool.and_eq_true] at ha
    obtain ⟨h1, h2⟩ := ha
    subst h1
    exact h.setOob (of_decide_eq_true h2)
  | deferred i ans => exact h.deferred (of_decide_eq_true ha) ans
  | writeReady ans => exact h.writeReady ans (List.all_eq_true.mp ha)

theorem Session.run {z : Bool} : ∀ (ops : List POp) (p : Pair), Session z p.a p.b p.na p.nb → p.fair ops = true →
    ∃ p', p.run ops = some p' ∧ Session z p'.a p'.b p'.na p'.nb
  | [], p, h, _ => ⟨p, rfl, h⟩
  | op :: ops, p, h, hf => by
    rw [Pair.fair, Bool.and_eq_true] at hf
    obtain ⟨h1, h2⟩ := hf
    have key : ∃ p', p.step op = some p' ∧ Session z p'.a p'.b p'.na p'.nb := by
      cases op with
      | left op =>
        obtain ⟨a', e, hs⟩ := h.op h1
        exact ⟨_, by rw [Pair.step, e]; rfl, hs⟩
      | right op =>
        obtain ⟨b', e, hs⟩ := h.symm.op h1
        exact ⟨_, by rw [Pair.step, e]; rfl, hs.symm⟩
      | toLeft e =>
        rw [Pair.step]
        split
        · rename_i hn
          obtain ⟨a', e1, hs⟩ := h.recv hn e
          exact ⟨_, by rw [e1]; rfl, hs⟩
        · exact ⟨p, rfl, h⟩
      | toRight e =>
        rw [Pair.step]
        split
        · rename_i hn
          obtain ⟨a', e1, hs⟩ := h.symm.recv hn e
          exact ⟨_, by rw [e1]; rfl, hs.symm⟩
        · exact ⟨p, rfl, h⟩
    obtain ⟨p', e, hs⟩ := key
    rw [e] at h2
    rw [Pair.run, e]
    exact Session.run ops p' hs h2

/-- When a mux has nothing to send and all its bytes arrived, all its messages arrived. -/
theorem drained {a : Mux} {logA : List Dat} {QA : Nat → List Frame} {innA : List Dat} {xA : Dat} {kA : Nat}
    {RA : Nat → List Frame} {PA : Par} (k1 : Side a logA QA innA xA kA RA PA) {innB : List Dat} {xB : Dat} {kB nb : Nat}
    (kx : kB < 10 + xB.d.length) (k6 : Link logA a.out innB xB kB nb) (h1 : a.sending = none) (h2 : nb = a.out.length) :
    logA = innB ∧ kB = 0 := by
  obtain ⟨l, hl, hl2⟩ := k6.split
  have hx0 : a.xmitPos = 0 := by
    rcases k1.tx.xmit with ⟨-, e⟩ | ⟨x, -, e, e3⟩
    · exact e
    · rw [k1.rest.xm] at e3; cases e3
  have hfr := k1.tx.frame
  rw [flatMap_msg, cur_idle h1 hx0, List.append_nil] at hfr
  have hlen := congrArg List.length hfr
  rw [← h2, k6.cnt, hl, List.flatMap_append, List.length_append] at hlen
  have hln : l = [] := by
    cases hll : l with
    | nil => rfl
    | cons y l2 =>
      exfalso
      rw [hll, List.flatMap_cons, List.length_append, Dat.len] at hlen
      by_cases hk : 0 < kB
      · obtain ⟨l3, e4⟩ := hl2 hk
        rw [hll] at e4
        have := (List.cons.inj e4).1
        subst this
        omega
      · omega
  rw [hln, List.flatMap_nil] at hlen
  refine ⟨by rw [hl, hln, List.append_nil], ?_⟩
  simp only [List.length_nil] at hlen
  omega

theorem Session.data {z : Bool} {a b : Mux} {na nb : Nat} (h : Session z a b na nb) {c d : Chan} (hc : c ∈ a.chans) (hd : d ∈ b.chans)
    (he : c.remoteId = d.id) :
    received d <+: written c ∧ c.sentUnacked ≤ c.window ∧ c.window ≤ b.maxRead
    ∧ (a.sending = none → nb = a.out.length → c.wr.len = 0 → d.rd.len = 0 → received d = written c) := by
  obtain ⟨logA, QA, innA, xA, kA, RA, PA, logB, QB, innB, xB, kB, RB, PB, k1, k2, k3, k4, k5, k6, k7, k8⟩ := h
  obtain ⟨i, hi, hic⟩ := List.getElem_of_mem hc
  obtain ⟨j, hj, hjd⟩ := List.getElem_of_mem hd
  have hc : a.chans[i]? = some c := by rw [List.getElem?_eq_getElem hi, hic]
  have hd : b.chans[j]? = some d := by rw [List.getElem?_eq_getElem hj, hjd]
  have hcs := k1.rest.chan i c hc
  have hds := k2.rest.chan j d hd
  have hct := k1.rest.stat i c hc
  have hdt := k2.rest.stat j d hd
  obtain ⟨l, hl, hl2⟩ := k6.split
  have hcalls := hds.calls
  have hacc := hcs.acc
  rw [← he] at hcalls
  refine ⟨?_, hcs.win, ?_, ?_⟩
  · rw [written, hacc, hl, fr_append, List.flatMap_append, List.flatMap_append, ← hcalls, received]
    simp only [List.append_assoc]
    exact List.prefix_append _ _
  · obtain ⟨j', hj', hp⟩ := k7.left i (by rw [← k1.rest.count]; exact hi)
    rw [hct.win, k2.rest.par]
    exact hp.winA
  · intro h1 h2 h3 h4
    obtain ⟨hd0, e1, e2⟩ := (k1.tx.chan i c hc).ring
    have hz := e2.len
    rw [h3, List.length_append] at hz
    have hq : QA i = [] := by
      cases hqq : QA i with
      | nil => rfl
      | cons f q =>
        rw [hqq, List.flatMap_cons, List.length_append, enc_length] at hz
        omega
    have hr : RB j = [] := by
      have := hds.ring.len
      rw [h4, List.length_append] at this
      cases hqq : RB j with
      | nil => rfl
      | cons f q =>
        rw [hqq, List.flatMap_cons, List.length_append, enc_length] at this
        omega
    obtain ⟨hln, -⟩ := drained k1 k2.rest.kx k6 h1 h2
    rw [hr, List.flatMap_nil, List.append_nil] at hcalls
    rw [written, hacc, hq, List.append_nil, hln, received, hcalls]

theorem Session.free {a b : Mux} {na nb : Nat} (h : Session true a b na nb) (h1 : a.sending = none) (h2 : nb = a.out.length)
    (h3 : b.sending = none) (h4 : na = b.out.length) {c d : Chan} (hc : c ∈ a.chans) (hd : d ∈ b.chans)
    (he : c.remoteId = d.id) (he2 : c.id = d.remoteId) (h5 : d.rd.len = 0) (h6 : d.recvUnacked = 0) : c.sentUnacked = 0 := by
  obtain ⟨logA, QA, innA, xA, kA, RA, PA, logB, QB, innB, xB, kB, RB, PB, k1, k2, k3, k4, k5, k6, k7, k8⟩ := h
  obtain ⟨i, hi, hic⟩ := List.getElem_of_mem hc
  obtain ⟨j, hj, hjd⟩ := List.getElem_of_mem hd
  have hc : a.chans[i]? = some c := by rw [List.getElem?_eq_getElem hi, hic]
  have hd : b.chans[j]? = some d := by rw [List.getElem?_eq_getElem hj, hjd]
  have hcs := (k1.rest.chan i c hc).sent
  have hds := (k2.rest.chan j d hd).recv
  obtain ⟨i', hi', hp⟩ := k7.right j (by rw [← k2.rest.count]; exact hj)
  have hu := hp.usA
  rw [(k8 rfl i').1] at hu
  obtain ⟨g1, g2⟩ := drained k1 k2.rest.kx k6 h1 h2
  obtain ⟨g3, g4⟩ := drained k2 k1.rest.kx k5 h3 h4
  rw [(k8 rfl i).1, g4, hin, if_neg (by omega), ← g3, g1, he, he2] at hcs
  rw [g2] at hds
  simp only [part] at hds
  rw [if_neg (by omega)] at hds
  simp only [List.length_nil] at hds
  omega

/-- C33, partly: two muxes with open channels at rest, joined by a reliable stream of bytes, and any history of writes, of
read callbacks that take any part of what is offered, of out of band data where the other end takes it, and of bytes
moving in any pieces.  Nothing ever goes wrong: no assertion fails and both muxes stay open.  What the user of a channel
took is always the beginning of what the user of the other end wrote, with every byte in or out of band as it was written
and every end of message after the right byte.  When nothing is on its way, it is all of it.

Missing: opening and closing channels during the session, errors of the child, and out of band data for a channel that
does not take it (that one is `C33_oob_violated`). -/
theorem C33_stream_partial {a b : Mux} (ha : Fresh a) (hb : Fresh b) (hj : Joined a b) (ops : List POp)
    (hf : (Pair.mk a b 0 0).fair ops = true) :
    ∃ p, (Pair.mk a b 0 0).run ops = some p ∧ p.a.state = .opened ∧ p.b.state = .opened
      ∧ ∀ c ∈ p.a.chans, ∀ d ∈ p.b.chans, c.remoteId = d.id → c.id = d.remoteId →
        (received d <+: written c ∧ received c <+: written d
        ∧ (p.a.sending = none → p.nb = p.a.out.length → c.wr.len = 0 → d.rd.len = 0 → received d = written c)
        ∧ (p.b.sending = none → p.na = p.b.out.length → d.wr.len = 0 → c.rd.len = 0 → received c = written d)) := by
  obtain ⟨p, e, hs⟩ := Session.run ops ⟨a, b, 0, 0⟩ (Fresh.session ha hb hj false (by intro z; cases z)) hf
  obtain ⟨logA, QA, innA, xA, kA, RA, PA, logB, QB, innB, xB, kB, RB, PB, k1, k2, k3, k4, k5, k6, k7, k8⟩ := id hs
  refine ⟨p, e, k3, k4, fun c hc d hd h1 h2 => ?_⟩
  have e1 := hs.data hc hd h1
  have e2 := hs.symm.data hd hc h2.symm
  exact ⟨e1.1, e2.1, e1.2.2.2, e2.2.2.2⟩

/-- C32, partly: in such a session the bytes sent and not acknowledged on a channel never exceed the window the other end
announced, which never exceeds the size of its read buffer; so the other end never sees a protocol error.

Missing: as for `C33_stream_partial`, and the service string of a new channel (`C32_service_violated`). -/
theorem C32_window_partial {a b : Mux} (ha : Fresh a) (hb : Fresh b) (hj : Joined a b) (ops : List POp)
    (hf : (Pair.mk a b 0 0).fair ops = true) :
    ∃ p, (Pair.mk a b 0 0).run ops = some p ∧ p.a.state = .opened ∧ p.b.state = .opened
      ∧ ∀ c ∈ p.a.chans, ∀ d ∈ p.b.chans, c.remoteId = d.id → c.id = d.remoteId →
        c.sentUnacked ≤ c.window ∧ c.window ≤ p.b.maxRead ∧ d.sentUnacked ≤ d.window ∧ d.window ≤ p.a.maxRead := by
  obtain ⟨p, e, hs⟩ := Session.run ops ⟨a, b, 0, 0⟩ (Fresh.session ha hb hj false (by intro z; cases z)) hf
  obtain ⟨logA, QA, innA, xA, kA, RA, PA, logB, QB, innB, xB, kB, RB, PB, k1, k2, k3, k4, k5, k6, k7, k8⟩ := id hs
  refine ⟨p, e, k3, k4, fun c hc d hd h1 h2 => ?_⟩
  have e1 := hs.data hc hd h1
  have e2 := hs.symm.data hd hc h2.symm
  exact ⟨e1.2.1, e1.2.2.1, e2.2.1, e2.2.2.1⟩

/-- C70, partly: a session that starts with nothing unacknowledged.  When everything was sent, arrived, and was taken by the
users, and no acknowledgement is missing, the whole window is free again at both ends.

Missing: as for `C33_stream_partial`; a channel opened with a service string is `C70_service_violated`. -/
theorem C70_window_returned_partial {a b : Mux} (ha : Fresh a) (hb : Fresh b) (hj : Joined a b)
    (h0 : (∀ c ∈ a.chans, c.sentUnacked = 0) ∧ ∀ d ∈ b.chans, d.sentUnacked = 0) (ops : List POp)
    (hf : (Pair.mk a b 0 0).fair ops = true) :
    ∃ p, (Pair.mk a b 0 0).run ops = some p
      ∧ (p.a.sending = none → p.nb = p.a.out.length → p.b.sending = none → p.na = p.b.out.length →
        ∀ c ∈ p.a.chans, ∀ d ∈ p.b.chans, c.remoteId = d.id → c.id = d.remoteId →
          (d.rd.len = 0 → d.recvUnacked = 0 → c.sentUnacked = 0) ∧ (c.rd.len = 0 → c.recvUnacked = 0 → d.sentUnacked = 0)) := by
  obtain ⟨p, e, hs⟩ := Session.run ops ⟨a, b, 0, 0⟩ (Fresh.session ha hb hj true (fun _ => h0)) hf
  refine ⟨p, e, fun h1 h2 h3 h4 c hc d hd e1 e2 => ⟨fun h5 h6 => ?_, fun h5 h6 => ?_⟩⟩
  · exact hs.free h1 h2 h3 h4 hc hd e1 e2 h5 h6
  · exact hs.symm.free h3 h4 h1 h2 hd hc e2.symm e1.symm h5 h6

end Gensio.Mux
