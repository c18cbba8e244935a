import Verif.Lemmas.Ax25Xid

/-!
What two channels and the frames between them have to do with the packets written.
-/
namespace Gensio.Ax25

/-- A packet: its PID and its data. -/
abbrev Pkt := UInt8 × List UInt8

/-- The bytes of packets, each with the PID of its packet. -/
def flat (W : List Pkt) : List (UInt8 × UInt8) := W.flatMap fun p => p.2.map (p.1, ·)

/-- The I frames of a list are for packets of `W`; `s` is at most the number of packets when the first was sent. -/
def IOk (m : Nat) (W : List Pkt) : Nat → List Frame → Prop
  | s, [] => s ≤ W.length
  | s, .info _ ns _ _ body :: L => ∃ k s' p, s ≤ s' ∧ k < s' ∧ s' < k + m ∧ s' ≤ W.length ∧ ns = k % m ∧ W[k]? = some p ∧ body = p.1 :: p.2 ∧
      IOk m W s' L
  | s, .sup .. :: L => IOk m W s L
  | s, .unn .. :: L => IOk m W s L

/-- The acknowledgements of a list go up, from `a` and to `V`. -/
def AckOk (m V : Nat) : Nat → List Frame → Prop
  | a, [] => a ≤ V
  | a, .info nr _ _ _ _ :: L => ∃ a', a ≤ a' ∧ a' ≤ V ∧ nr = a' % m ∧ AckOk m V a' L
  | a, .sup _ nr _ _ :: L => ∃ a', a ≤ a' ∧ a' ≤ V ∧ nr = a' % m ∧ AckOk m V a' L
  | a, .unn .. :: L => AckOk m V a L

theorem IOk.le {m W} : ∀ {L s}, IOk m W s L → s ≤ W.length := by
  intro L
  induction L with
  | nil => intro s h; exact h
  | cons f L ih =>
    intro s h
    cases f with
    | info nr ns p ic b => obtain ⟨k, s', p, h1, h2, h3, h4, _⟩ := h; omega
    | sup => exact ih h
    | unn => exact ih h

theorem IOk.mono {m W} : ∀ {L s t}, IOk m W s L → t ≤ s → IOk m W t L := by
  intro L
  induction L with
  | nil => intro s t h ht; exact Nat.le_trans ht h
  | cons f L ih =>
    intro s t h ht
    cases f with
    | info nr ns p ic b => obtain ⟨k, s', p, h1, h2⟩ := h; exact ⟨k, s', p, by omega, h2⟩
    | sup => exact ih (s := s) h ht
    | unn => exact ih (s := s) h ht

theorem IOk.tail {m W f L s} (h : IOk m W s (f :: L)) : IOk m W s L := by
  cases f with
  | info nr ns p ic b => obtain ⟨k, s', p, h1, h2, h3, h4, h5, h6, h7, h8⟩ := h; exact h8.mono h1
  | sup => exact h
  | unn => exact h

theorem IOk.lose {m W} : ∀ {L s}, IOk m W s L → ∀ i, IOk m W s (L.eraseIdx i) := by
  intro L
  induction L with
  | nil => intro s h i; simpa using h
  | cons f L ih =>
    intro s h i
    cases i with
    | zero => exact h.tail
    | succ i =>
      cases f with
      | info nr ns p ic b =>
        obtain ⟨k, s', p, h1, h2, h3, h4, h5, h6, h7, h8⟩ := h
        exact ⟨k, s', p, h1, h2, h3, h4, h5, h6, h7, ih h8 i⟩
      | sup => exact ih (s := s) h i
      | unn => exact ih (s := s) h i

theorem IOk.grow {m W} (p : Pkt) : ∀ {L s}, IOk m W s L → IOk m (W ++ [p]) s L := by
  intro L
  induction L with
  | nil => intro s h; show s ≤ _; rw [List.length_append]; exact Nat.le_trans h (by omega)
  | cons f L ih =>
    intro s h
    cases f with
    | info nr ns pp ic b =>
      obtain ⟨k, s', q, h1, h2, h3, h4, h5, h6, h7, h8⟩ := h
      refine ⟨k, s', q, h1, h2, h3, by rw [List.length_append]; omega, h5, ?_, h7, ih h8⟩
      rw [List.getElem?_append_left (by omega)]; exact h6
    | sup => exact ih (s := s) h
    | unn => exact ih (s := s) h

/-- A new frame is for a packet in the window. -/
def NewOk (m : Nat) (W : List Pkt) (V : Nat) : Frame → Prop
  | .info nr ns _ _ body => nr = V % m ∧ ∃ k p, k < W.length ∧ W.length < k + m ∧ ns = k % m ∧ W[k]? = some p ∧ body = p.1 :: p.2
  | .sup _ nr _ _ => nr = V % m
  | .unn .. => True

theorem IOk.snoc {m W V f} (hf : NewOk m W V f) : ∀ {L s}, IOk m W s L → IOk m W s (L ++ [f]) := by
  intro L
  induction L with
  | nil =>
    intro s h
    cases f with
    | info nr ns pp ic b =>
      obtain ⟨_, k, p, h1, h2, h3, h4, h5⟩ := hf
      exact ⟨k, W.length, p, h, h1, h2, Nat.le_refl _, h3, h4, h5, Nat.le_refl _⟩
    | sup => exact h
    | unn => exact h
  | cons g L ih =>
    intro s h
    cases g with
    | info nr ns pp ic b =>
      obtain ⟨k, s', q, h1, h2, h3, h4, h5, h6, h7, h8⟩ := h
      exact ⟨k, s', q, h1, h2, h3, h4, h5, h6, h7, ih h8⟩
    | sup => exact ih (s := s) h
    | unn => exact ih (s := s) h

theorem AckOk.le {m V} : ∀ {L a}, AckOk m V a L → a ≤ V := by
  intro L
  induction L with
  | nil => intro a h; exact h
  | cons f L ih =>
    intro a h
    cases f with
    | info => obtain ⟨a', h1, h2, _⟩ := h; omega
    | sup => obtain ⟨a', h1, h2, _⟩ := h; omega
    | unn => exact ih (a := a) h

theorem AckOk.mono {m V} : ∀ {L a b}, AckOk m V a L → b ≤ a → AckOk m V b L := by
  intro L
  induction L with
  | nil => intro a b h hb; exact Nat.le_trans hb h
  | cons f L ih =>
    intro a b h hb
    cases f with
    | info => obtain ⟨a', h1, h2⟩ := h; exact ⟨a', by omega, h2⟩
    | sup => obtain ⟨a', h1, h2⟩ := h; exact ⟨a', by omega, h2⟩
    | unn => exact ih (a := a) h hb

theorem AckOk.up {m V V'} (hv : V ≤ V') : ∀ {L a}, AckOk m V a L → AckOk m V' a L := by
  intro L
  induction L with
  | nil => intro a h; exact Nat.le_trans h hv
  | cons f L ih =>
    intro a h
    cases f with
    | info => obtain ⟨a', h1, h2, h3, h4⟩ := h; exact ⟨a', h1, by omega, h3, ih h4⟩
    | sup => obtain ⟨a', h1, h2, h3, h4⟩ := h; exact ⟨a', h1, by omega, h3, ih h4⟩
    | unn => exact ih (a := a) h

theorem AckOk.tail {m V f L a} (h : AckOk m V a (f :: L)) : AckOk m V a L := by
  cases f with
  | info => obtain ⟨a', h1, h2, h3, h4⟩ := h; exact h4.mono h1
  | sup => obtain ⟨a', h1, h2, h3, h4⟩ := h; exact h4.mono h1
  | unn => exact h

theorem AckOk.lose {m V} : ∀ {L a}, AckOk m V a L → ∀ i, AckOk m V a (L.eraseIdx i) := by
  intro L
  induction L with
  | nil => intro s h i; simpa using h
  | cons f L ih =>
    intro a h i
    cases i with
    | zero => exact h.tail
    | succ i =>
      cases f with
      | info => obtain ⟨a', h1, h2, h3, h4⟩ := h; exact ⟨a', h1, h2, h3, ih h4 i⟩
      | sup => obtain ⟨a', h1, h2, h3, h4⟩ := h; exact ⟨a', h1, h2, h3, ih h4 i⟩
      | unn => exact ih (a := a) h i

theorem AckOk.snoc {m V W f} (hf : NewOk m W V f) : ∀ {L a}, AckOk m V a L → AckOk m V a (L ++ [f]) := by
  intro L
  induction L with
  | nil =>
    intro a h
    cases f with
    | info => exact ⟨V, h, Nat.le_refl _, hf.1, Nat.le_refl _⟩
    | sup => exact ⟨V, h, Nat.le_refl _, hf, Nat.le_refl _⟩
    | unn => exact h
  | cons g L ih =>
    intro a h
    cases g with
    | info => obtain ⟨a', h1, h2, h3, h4⟩ := h; exact ⟨a', h1, h2, h3, ih h4⟩
    | sup => obtain ⟨a', h1, h2, h3, h4⟩ := h; exact ⟨a', h1, h2, h3, ih h4⟩
    | unn => exact ih (a := a) h

/-- Where the connection of two channels is: this one is connecting, its peer is connecting, or both are connected. -/
inductive Ph | opening | peerOpening | data
deriving DecidableEq

/-- What can be in the command queue of a channel. -/
def cmdAllowed (m : Nat) (ph : Ph) (cmd : Cmd) (extra : List UInt8) : Prop :=
  match cmd with
  | .sup _ => ph ≠ .opening
  | .unn .xid => m = 128 ∧ ph ≠ .opening
  | .unn .sabme => m = 128 ∧ extra = [] ∧ ph ≠ .peerOpening
  | .unn .sabm => m = 8 ∧ extra = [] ∧ ph ≠ .peerOpening
  | .unn .dm => ph ≠ .peerOpening
  | .unn .ua => extra = [] ∧ ph ≠ .opening
  | .unn .disc => ph ≠ .opening
  | .unn .frmr => False
  | .unn .test => False

/-- What can be on its way from a channel. -/
def frAllowed (m : Nat) (ph : Ph) : Frame → Prop
  | .info .. => ph ≠ .opening
  | .sup .. => ph ≠ .opening
  | .unn .xid _ _ body => m = 128 ∧ ph ≠ .opening ∧ ∃ g : Conf, 0 < g.readwindow ∧ g.readwindow ≤ 127 ∧ body = formatXid g
  | .unn k _ _ body => cmdAllowed m ph (.unn k) body

theorem cmdAllowed.data {m ph cmd ex} (h : cmdAllowed m ph cmd ex) : cmdAllowed m .data cmd ex := by
  unfold cmdAllowed at *
  split at h <;> simp_all

theorem frAllowed.data {m ph f} (h : frAllowed m ph f) : frAllowed m .data f := by
  unfold frAllowed at *
  split at h
  · simp
  · simp
  · exact ⟨h.1, by simp, h.2.2⟩
  · exact h.data

/-- The phases of two channels. -/
def PhOk (a b : Ph) : Prop := (a = .data ∧ b = .data) ∨ (a = .opening ∧ b = .peerOpening) ∨ (a = .peerOpening ∧ b = .opening)

theorem PhOk.symm {a b : Ph} (h : PhOk a b) : PhOk b a := by
  unfold PhOk at *
  rcases h with h | h | h
  · exact .inl ⟨h.2, h.1⟩
  · exact .inr (.inr ⟨h.2, h.1⟩)
  · exact .inr (.inl ⟨h.2, h.1⟩)

/-- The handling of an I frame has called the read callback and is not finished. -/
def pend (c : Chan) : Nat := match c.inRead with | some ⟨_, some _⟩ => 1 | _ => 0

/-- The packets stored for reading. -/
def rq (c : Chan) : List RSlot := (List.range c.readLen).map fun j => c.rd[(c.readPos + j) % c.conf.readwindow]?.getD ⟨[], 0⟩

/-- The bytes stored for reading. -/
def qb (c : Chan) : List (UInt8 × UInt8) := (rq c).flatMap fun d => d.rest.map (d.pid, ·)

/-- A channel in the list of channels, with `W` the packets written, of which at most `A` are known to be acknowledged, `V` the count of
packets it acknowledges, and `R` the count of packets it has stored. -/
structure Live (m : Nat) (ph : Ph) (W : List Pkt) (A V R : Nat) (c : Chan) : Prop where
  md : c.modulo = m
  ex : c.extended ≠ 0 ↔ m = 128
  win : c.writewindow < m
  wlm : c.writeLen < m
  vs : c.vs = W.length % m
  wl : c.writeLen ≤ W.length
  ack : W.length ≤ A + c.writeLen
  slots : ∀ j, 1 ≤ j → j ≤ c.writeLen → ∃ d, c.wr[subSeq c.writePos j c.conf.writewindow]? = some d ∧ d.seq = (W.length - j) % m ∧
    W[W.length - j]? = some (d.pid, d.data.take d.len)
  vr : c.vr = V % m
  pnd : V + pend c = R
  cmds : ∀ e ∈ c.cmdrsp, cmdAllowed m ph e.cmd e.extra
  st : c.state = .inOpen ↔ ph = .opening
  op : ph = .opening → c.ownBsy = false ∧ c.readLen = 0 ∧ pend c = 0 ∧ c.sendLen = 0
  ua : c.conf.ignoreUa = true

/-- The fields of a channel that reading depends on. -/
def rcore (c : Chan) : Conf × List RSlot × Nat × Nat := (c.conf, c.rd, c.readPos, c.readLen)

/-- A channel, without what the read callback in progress was called with. -/
structure K0 (m : Nat) (ph : Ph) (W : List Pkt) (A V R : Nat) (q : List (UInt8 × UInt8)) (c : Chan) : Prop where
  rl : c.readLen ≤ c.conf.readwindow
  live : c.inChans = true → Live m ph W A V R c
  qb : qb c = q

/-- A channel. -/
structure K (m : Nat) (ph : Ph) (W : List Pkt) (A V R : Nat) (q : List (UInt8 × UInt8)) (c : Chan) : Prop extends K0 m ph W A V R q c where
  ir : ∀ r, c.inRead = some r → r.idx = c.readPos ∧ 0 < c.readLen

/-- The channel without what none of this depends on. -/
def ecore (c : Chan) : Chan :=
  { c with cmdrsp := [], ackPending := 0, peerBsy := false, inRej := false, pollPending := false, dataPSent := false, retryCount := 0,
           err := 0, gotFirst := false, maxRetries := 0, va := 0, readEnabled := false, readwindow := 0, maxWrite := 0 }

/-- Every queued command is allowed. -/
def CmdsOk (m : Nat) (ph : Ph) (c : Chan) : Prop := ∀ e ∈ c.cmdrsp, cmdAllowed m ph e.cmd e.extra

theorem Live.of {m ph W A V R} {c c' : Chan} (h : Live m ph W A V R c) (e : ecore c' = ecore c) (hc : CmdsOk m ph c') : Live m ph W A V R c' := by
  have key : ∀ c : Chan, (Live m ph W A V R (ecore c)) ↔ Live m ph W A V R { c with cmdrsp := [] } := by
    intro c; constructor <;> intro h <;> obtain ⟨h1, h2, h3, h4, h5, h6, h7, h8, h9, h10, h11, h12, h13, h14⟩ := h <;> constructor <;> assumption
  have h1 : Live m ph W A V R { c with cmdrsp := [] } := by
    obtain ⟨h1, h2, h3, h4, h5, h6, h7, h8, h9, h10, h11, h12, h13, h14⟩ := h
    constructor <;> first | assumption | simp
  have h2 := (key c').1 (by rw [e]; exact (key c).2 h1)
  obtain ⟨h1, h2, h3, h4, h5, h6, h7, h8, h9, h10, h11, h12, h13, h14⟩ := h2
  constructor <;> assumption

theorem qb_rcore {c c' : Chan} (e : rcore c' = rcore c) : qb c' = qb c := by
  simp only [rcore, Prod.mk.injEq] at e
  unfold qb rq
  rw [e.1, e.2.1, e.2.2.1, e.2.2.2]

theorem rcore_ecore {c c' : Chan} (e : ecore c' = ecore c) : rcore c' = rcore c := by
  have h : ∀ c, rcore (ecore c) = rcore c := fun _ => rfl
  rw [← h, e, h]

theorem inRead_ecore {c c' : Chan} (e : ecore c' = ecore c) : c'.inRead = c.inRead := by
  have h : ∀ c, (ecore c).inRead = c.inRead := fun _ => rfl
  rw [← h, e, h]

theorem inChans_ecore {c c' : Chan} (e : ecore c' = ecore c) : c'.inChans = c.inChans := by
  have h : ∀ c, (ecore c).inChans = c.inChans := fun _ => rfl
  rw [← h, e, h]

theorem state_ecore {c c' : Chan} (e : ecore c' = ecore c) : c'.state = c.state := by
  have h : ∀ c, (ecore c).state = c.state := fun _ => rfl
  rw [← h, e, h]

theorem K0.of {m ph W A V R q} {c c' : Chan} (h : K0 m ph W A V R q c) (e : ecore c' = ecore c) (hc : c.inChans = true → CmdsOk m ph c') :
    K0 m ph W A V R q c' := by
  have er := rcore_ecore e
  have ec := inChans_ecore e
  refine ⟨?_, fun hi => (h.live (ec ▸ hi)).of e (hc (ec ▸ hi)), (qb_rcore er).trans h.qb⟩
  simp only [rcore, Prod.mk.injEq] at er
  rw [er.2.2.2, er.1]; exact h.rl

theorem K.of {m ph W A V R q} {c c' : Chan} (h : K m ph W A V R q c) (e : ecore c' = ecore c) (hc : c.inChans = true → CmdsOk m ph c') :
    K m ph W A V R q c' := by
  refine ⟨h.toK0.of e hc, ?_⟩
  have er := rcore_ecore e
  simp only [rcore, Prod.mk.injEq] at er
  rw [inRead_ecore e, er.2.2.1, er.2.2.2]; exact h.ir

/-- A channel that is taken out of the list of channels. -/
theorem K.out {m ph W A V R q} {c c' : Chan} (h : K m ph W A V R q c) (e : rcore c' = rcore c) (ei : c'.inRead = c.inRead) (hc : c'.inChans = false) :
    K m ph W A V R q c' := by
  have er := e
  simp only [rcore, Prod.mk.injEq] at er
  refine ⟨⟨?_, fun hi => by simp [hc] at hi, (qb_rcore e).trans h.qb⟩, ?_⟩
  · rw [er.2.2.2, er.1]; exact h.rl
  · rw [ei, er.2.2.1, er.2.2.2]; exact h.ir

theorem K0.cmds {m ph W A V R q} {c : Chan} (h : K0 m ph W A V R q c) (hc : c.inChans = true) : CmdsOk m ph c := (h.live hc).cmds

theorem CmdsOk.sendCr {m ph} {c : Chan} (h : CmdsOk m ph c) {cmd ex} (ha : cmdAllowed m ph cmd ex) (pf ic) : CmdsOk m ph (sendCr c cmd pf ic ex) := by
  unfold Ax25.sendCr
  split
  · intro e he
    simp only [List.mem_append, List.mem_singleton] at he
    rcases he with he | rfl
    · exact h e he
    · exact ha
  · exact h

theorem setRR_mem {pf ic : Bool} : ∀ {q q' : List CmdRsp}, setRR pf ic q = some q' → ∀ e ∈ q', ∃ e' ∈ q, e.cmd = e'.cmd ∧ e.extra = e'.extra := by
  intro q
  induction q with
  | nil => intro q' h; simp [setRR] at h
  | cons x q ih =>
    intro q' h e he
    unfold setRR at h
    split at h
    · cases h
      rcases List.mem_cons.1 he with rfl | he
      · refine ⟨x, by simp, ?_⟩
        split <;> exact ⟨rfl, rfl⟩
      · exact ⟨e, by simp [he], rfl, rfl⟩
    · cases hq : setRR pf ic q with
      | none => simp [hq] at h
      | some q1 =>
        simp [hq] at h
        subst h
        rcases List.mem_cons.1 he with rfl | he
        · exact ⟨e, by simp, rfl, rfl⟩
        · obtain ⟨e', h1, h2⟩ := ih hq e he
          exact ⟨e', by simp [h1], h2⟩

theorem CmdsOk.sendAck {m ph} {c : Chan} (h : CmdsOk m ph c) (hp : ph ≠ .opening) (pf ic) : CmdsOk m ph (sendAck c pf ic) := by
  unfold Ax25.sendAck
  dsimp only
  split
  · exact h
  · split
    · rename_i q hq
      intro e he
      obtain ⟨e', h1, h2, h3⟩ := setRR_mem hq e he
      rw [h2, h3]; exact h e' h1
    · exact CmdsOk.sendCr (c := { c with ackPending := 0 }) (cmd := .sup .rr) (ex := []) h hp _ _

@[simp] theorem ecore_sendCr (c : Chan) (cmd pf ic ex) : ecore (sendCr c cmd pf ic ex) = ecore c := by
  unfold sendCr; split <;> rfl

@[simp] theorem ecore_sendCmd (c : Chan) (cmd pf) : ecore (sendCmd c cmd pf) = ecore c := ecore_sendCr ..

@[simp] theorem ecore_sendRsp (c : Chan) (cmd pf) : ecore (sendRsp c cmd pf) = ecore c := ecore_sendCr ..

@[simp] theorem ecore_sendAck (c : Chan) (pf ic) : ecore (sendAck c pf ic) = ecore c := by
  unfold sendAck; dsimp only
  split
  · rfl
  · split
    · rfl
    · rw [ecore_sendCr]; rfl

@[simp] theorem ecore_sendSabm (c : Chan) : ecore (sendSabm c) = ecore c := by
  unfold sendSabm; repeat' split
  all_goals simp

end Gensio.Ax25
