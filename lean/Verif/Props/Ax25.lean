import Verif.Lemmas.Ax25Xid

/-!
# AX.25: sequence numbers, windows, and memory
-/
namespace Gensio.Ax25

/-! ## C99: the arithmetic of sequence numbers -/

/-- C99: for a modulus of at most 128, `sub_seq` and `add_seq` are subtraction and addition modulo it, and `seq_in_range` says that going
up from `s` reaches `v` no later than `e`. -/
theorem C99_sequence_arithmetic {m : Nat} (hm : m ≤ 128) {a b : Nat} (ha : a < m) (hb : b < m) :
    (subSeq a b m < m ∧ (subSeq a b m + b) % m = a) ∧ (∀ n, n ≤ m → addSeq a n m < m ∧ addSeq a n m = (a + n) % m) ∧
    (∀ v, v < m → (seqInRange a b v = true ↔ ∃ i, i ≤ subSeq b a m ∧ (a + i) % m = v)) := by
  refine ⟨?_, ?_, ?_⟩
  · rw [subSeq_mod hm ha hb]
    refine ⟨Nat.mod_lt _ (by omega), ?_⟩
    rw [Nat.mod_add_mod, show a + m - b + b = a + m by omega, Nat.add_mod_right, Nat.mod_eq_of_lt ha]
  · intro n hn
    rw [addSeq_mod hm ha hn]
    exact ⟨Nat.mod_lt _ (by omega), rfl⟩
  · intro v hv
    rw [seqInRange_iff ha hb hv, subSeq_mod hm hb ha]
    constructor
    · intro h
      refine ⟨(v + m - a) % m, h, ?_⟩
      rw [Nat.add_mod_mod, show a + (v + m - a) = v + m by omega, Nat.add_mod_right, Nat.mod_eq_of_lt hv]
    · rintro ⟨i, hi, rfl⟩
      have hlt : (b + m - a) % m < m := Nat.mod_lt _ (by omega)
      have e : ((a + i) % m + m - a) % m = i := by
        have := mod_diff (a := a) (d := i) (m := m) (by omega)
        rwa [Nat.mod_eq_of_lt ha] at this
      rw [e]; exact hi

example : subSeq 1 6 8 = 3 ∧ addSeq 6 3 8 = 1 ∧ seqInRange 6 1 0 = true ∧ seqInRange 6 1 3 = false := by decide

/-- C99, what a station does with an N(R), for any peer: the number of packets released is never more than the number queued, and
no more than the number of packets is sent again. -/
theorem C99_ack_within_queue {c : Chan} (hv : c.vs < 256) (hw : c.writeLen ≤ 127) (hm : c.modulo = 8 ∨ c.modulo = 128) {nr : Nat}
    (hn : nr < c.modulo) (h : nrInRange c nr = true) :
    (updateVa c nr).writeLen ≤ c.writeLen ∧ (updateVa c nr).sendLen ≤ (updateVa c nr).writeLen ∧ subSeq c.vs nr c.modulo ≤ c.writeLen := by
  have hb := nr_bounds hv hw hm hn h
  unfold updateVa u8
  dsimp only
  generalize subSeq nr (subSeq c.vs c.writeLen c.modulo) c.modulo = d at hb ⊢
  refine ⟨by omega, ?_, hb.2⟩
  split <;> omega

/-! ## Concrete channels -/

/-- A small configuration. -/
def exConf : Conf := ⟨16, 4, 4, 4, false, 10, 3, 1, true⟩

/-- A channel that was opened and whose peer accepted. -/
def exOpen (f : Conf) : List Ev → Option Chan := fun l => run (openChan (alloc f)) ([.tx .full, .rx (.unn .ua true false [])] ++ l)

private theorem of_any {α : Type} {o : Option α} {P : α → Bool} (h : o.any P = true) : ∃ a, o = some a ∧ P a = true := by
  cases o with
  | none => simp at h
  | some a => exact ⟨a, rfl, by simpa using h⟩

/-! ## C100: the data of a write -/

/-- C100, violated: an open channel with an empty queue is given a piece of 6 bytes and one of 1 byte with a maximum of 4: the second piece
is copied past the end of the packet's buffer. -/
theorem C100_write_in_bounds_violated :
    ∃ c, exOpen exConf [] = some c ∧ c.state = .opn ∧ c.writeLen = 0 ∧ write c [[1, 2, 3, 4, 5, 6], [7]] 240 = none := by
  have h : (exOpen exConf []).any (fun c => decide (c.state = .opn ∧ c.writeLen = 0 ∧ write c [[1, 2, 3, 4, 5, 6], [7]] 240 = none)) = true := by
    decide +kernel
  obtain ⟨c, e, hc⟩ := of_any h
  exact ⟨c, e, by simpa using hc⟩

/-- C100, partial: when the pieces before the last fit into a packet, the write stays in the buffer, and the packet queued is the first
bytes of the data, as many as the count says; missing: a piece before the last that reaches past the packet. -/
theorem C100_write_content_partial {c : Chan} (h : Safe c) (hs : c.state = .opn)
    (hw : c.writeLen < c.writewindow) {sg : List (List UInt8)} (hf : sg.dropLast.flatten.length ≤ c.maxWrite) (pid : UInt8) :
    ∃ c' n d, write c sg pid = some (c', 0, n) ∧ n = min sg.flatten.length c.maxWrite ∧ c'.wr[c.writePos]? = some d ∧ d.pid = pid ∧
      d.data.take d.len = sg.flatten.take n ∧ d.len = n ∧ d.seq = c.vs ∧ d.present = true ∧
      c'.writeLen = c.writeLen + 1 ∧ (∀ i, i ≠ c.writePos → c'.wr[i]? = c.wr[i]?) := by
  have h5 := h.wpos; have h6 := h.wrl
  obtain ⟨b, hb, he⟩ := write_exact h hs hw hf pid
  refine ⟨_, _, _, he, rfl, List.getElem?_set_self (by omega), rfl, hb, rfl, rfl, rfl, rfl, ?_⟩
  intro i hi
  show (c.wr.set _ _)[i]? = _
  rw [List.getElem?_set_ne (by omega)]

example : (exOpen exConf [.write [[1, 2], [3, 4, 5]] 240]).map (fun c => (c.wr.map fun d => d.data.take d.len, c.writeLen)) =
    some ([[1, 2, 3, 4], [], [], []], 1) := by decide +kernel

/-! ## C101: the packets of raw and UI writes -/

/-- C101, violated: a raw write of more than the maximum copies all of the data into a buffer that has only room for the maximum; the same
with a UI frame. -/
theorem C101_raw_in_bounds_violated :
    sendRaw 4 false [] [[1, 2, 3, 4, 5]] = none ∧ sendRaw 4 true [2, 4, 3, 240] [[1, 2, 3], [4, 5]] = none := by decide

theorem copyAll_ok {sg : List (List UInt8)} : ∀ {buf : List UInt8} {pos : Nat}, pos + sg.flatten.length ≤ buf.length →
    copyAll buf pos sg = some (buf.take pos ++ sg.flatten ++ buf.drop (pos + sg.flatten.length), pos + sg.flatten.length) := by
  induction sg with
  | nil => intro buf pos h; simp [copyAll]
  | cons s sg ih =>
    intro buf pos h
    simp only [List.flatten_cons, List.length_append] at h
    unfold copyAll
    have e : copyAt buf pos s = some (buf.take pos ++ s ++ buf.drop (pos + s.length)) := by
      unfold copyAt
      split
      · rename_i h0
        have := List.length_eq_zero_iff.1 h0
        subst this; simp
      · rw [if_pos (by omega)]
    rw [e]
    dsimp only
    have hl : (buf.take pos ++ s).length = pos + s.length := by simp; omega
    rw [ih (by rw [List.length_append, hl, List.length_drop]; omega), List.take_left' hl, ← List.drop_drop, List.drop_left' hl, List.drop_drop]
    simp [Nat.add_assoc]

/-- C101, partial: a raw or UI write of no more than the maximum is sent whole after its header; missing: larger writes. -/
theorem C101_raw_content_partial {max : Nat} {crc : Bool} {hdr : List UInt8} {sg : List (List UInt8)} (h : sg.flatten.length ≤ max) :
    ∃ f, sendRaw max crc hdr sg = some (f, sg.flatten.length) ∧ f.take (hdr.length + sg.flatten.length) = hdr ++ sg.flatten ∧
      f.length = hdr.length + sg.flatten.length + (if crc then 2 else 0) := by
  have key : ∀ (buf : List UInt8) (src : List UInt8) (pos : Nat), pos + src.length ≤ buf.length →
      copyAt buf pos src = some (buf.take pos ++ src ++ buf.drop (pos + src.length)) := by
    intro buf src pos hp
    unfold copyAt
    rw [if_pos hp]
    split
    · rename_i h0
      have := List.length_eq_zero_iff.1 h0
      subst this; simp
    · rfl
  unfold sendRaw
  dsimp only
  rw [if_neg (by omega), key _ _ _ (by simp; omega)]
  dsimp only
  rw [copyAll_ok (by simp; omega)]
  dsimp only
  have t1 : ∀ z : List UInt8, List.take hdr.length (List.take 0 z ++ hdr ++ z.drop (0 + hdr.length)) = hdr := by
    intro z; rw [List.take_zero, List.nil_append, List.take_left]
  have hl : (hdr ++ sg.flatten).length = hdr.length + sg.flatten.length := List.length_append
  cases crc with
  | false =>
    rw [if_neg (by simp)]
    refine ⟨_, rfl, ?_, ?_⟩
    · rw [List.take_take, Nat.min_self, t1, List.take_left' hl]
    · rw [t1]; simp
  | true =>
    rw [if_pos rfl, t1, key _ _ _ (by simp; omega)]
    refine ⟨_, rfl, ?_, ?_⟩
    · rw [List.take_left' hl, List.take_take, Nat.min_eq_left (by omega), List.append_assoc, List.take_left' hl]
    · rw [List.take_left' hl]; simp; omega

example : sendRaw 8 true [9, 9, 3, 240] [[1, 2], [3]] = some ([9, 9, 3, 240, 1, 2, 3, 0, 0], 3) := by decide

/-! ## C102: no peer can break a channel -/

/-- C102, violated: a peer sends an XID with a receive packet size of 1600 bits: a channel that can send packets of 200 bytes makes 200
its window.  Five writes into the queue of 4 fail an assertion. -/
theorem C102_peer_cannot_break_violated :
    runPossible (openChan (alloc { exConf with maxWrite := 200 })) ([.tx .full, .rx (.unn .ua true false []),
        .rx (.unn .xid true true [0x82, 0x80, 0, 4, 6, 2, 6, 64])] ++ List.replicate 5 (.write [[1]] 240)) = true ∧
    exOpen { exConf with maxWrite := 200 } ([.rx (.unn .xid true true [0x82, 0x80, 0, 4, 6, 2, 6, 64])] ++ List.replicate 5 (.write [[1]] 240)) = none := by
  decide +kernel

/-- C102, violated: a station configured with a window of 1 that is answered with DM to its SABME, and then with UA, has a window of 2; the
second write fails an assertion. -/
theorem C102_fallback_window_violated :
    confOk { exConf with writewindow := 1 } = true ∧
    run (openChan (alloc { exConf with writewindow := 1 })) [.tx .full, .rx (.unn .dm true false []), .tx .full,
      .rx (.unn .ua true false []), .write [[1]] 240, .write [[2]] 240] = none := by decide +kernel

/-- C102, violated: the read callback is running while the close of the channel ends, and then fails: the channel is removed a second time
from the list of channels, which fails an assertion. -/
theorem C102_read_error_after_close_violated :
    runPossible (openChan (alloc exConf)) [.tx .full, .rx (.unn .ua true false []), .rx (.info 0 0 false true [240, 1]), .readEn true,
      .deferred, .close, .tx .full, .rx (.unn .ua true false []), .readRet (.error 5)] = true ∧
    exOpen exConf [.rx (.info 0 0 false true [240, 1]), .readEn true, .deferred, .close, .tx .full, .rx (.unn .ua true false []),
      .readRet (.error 5)] = none := by decide +kernel

/-- Every event of a run can happen when it does, and is none of the ones of the violations. -/
def AllBenign (c : Chan) : List Ev → Prop
  | [] => True
  | e :: l => possible c e = true ∧ Benign c e ∧ ∀ c', step c e = some c' → AllBenign c' l

theorem safe_run {c : Chan} (h : Safe c) : ∀ {l : List Ev}, AllBenign c l →
    ∃ c', run c l = some c' ∧ Safe c' := by
  intro l
  induction l generalizing c with
  | nil => intro _; exact ⟨c, rfl, h⟩
  | cons e l ih =>
    rintro ⟨hp, hb, hl⟩
    obtain ⟨c', e', hs⟩ := step_safe h hp hb
    obtain ⟨c'', e'', hs'⟩ := ih hs (hl _ e')
    refine ⟨c'', ?_, hs'⟩
    unfold run
    rw [e', Option.bind_some, e'']

theorem safe_alloc {f : Conf} (h0 : 2 ≤ f.writewindow) (h1 : f.writewindow ≤ 127) (h2 : 0 < f.readwindow) (h3 : f.readwindow ≤ 127)
    {m ext : Nat} (hm : m = 8 ∨ m = 128) (he : ext ≤ 1) {rw ww mw : Nat} (hw : ww ≤ f.writewindow) (hmw : mw ≤ f.maxWrite) {st : St} {ic : Bool}
    (hl : ic = true ↔ st ≠ .closed ∧ st ≠ .reportClose ∧ st ≠ .ioErr) (mr : Nat) (hb : f.maxWrite < 18446744073709551616) :
    Safe { alloc f with modulo := m, extended := ext, readwindow := rw, writewindow := ww, maxWrite := mw, state := st, inChans := ic, maxRetries := mr } := by
  constructor <;> simp [alloc] <;> first | omega | assumption | skip

theorem setExtended_mod {c : Chan} (e d) : setExtended c e d = setExtended { c with modulo := 8 } e d := by
  unfold setExtended setExtended.plain
  dsimp only

theorem open_safe {f : Conf} (hf : confOk f = true) (h2 : 2 ≤ f.writewindow) (hm : f.maxWrite < 18446744073709551616) {c : Chan}
    (hc : c = openChan (alloc f) ∨ ∃ pf e d, c = acceptChan f pf e d) : Safe c := by
  simp [confOk] at hf
  have b1 : f.writewindow ≤ 127 := by obtain ⟨_, h⟩ := hf; split at h <;> omega
  have b2 : f.readwindow ≤ 127 := by obtain ⟨_, h⟩ := hf; split at h <;> omega
  have b3 : 0 < f.readwindow := by omega
  rcases hc with rfl | ⟨pf, e, d, rfl⟩
  · unfold openChan
    refine Safe.of (Safe.setExtended (c := { resetData { alloc f with writewindow := u8 f.writewindow, readwindow := u8 f.readwindow, maxWrite := f.maxWrite % 65536, maxRetries := f.maxRetries, inChans := true, modulo := 8 } with state := .inOpen }) ?_ (f.extended ≠ 0) []) ?_
    · exact safe_alloc (m := 8) (ext := 0) (ww := u8 f.writewindow) (rw := u8 f.readwindow) (mw := f.maxWrite % 65536) (st := .inOpen)
        (ic := true) h2 b1 b3 b2 (by simp) (by simp) (by unfold u8; omega) (by omega) (by simp) f.maxRetries hm
    · rw [core_sendSabm]
      exact congrArg core (setExtended_mod (c := { resetData { alloc f with writewindow := u8 f.writewindow, readwindow := u8 f.readwindow, maxWrite := f.maxWrite % 65536, maxRetries := f.maxRetries, inChans := true } with state := .inOpen }) _ _)
  · unfold acceptChan
    dsimp only
    have base : Safe (setExtended { alloc f with state := .opn, inChans := true, modulo := 8 } e d) := by
      apply Safe.setExtended
      exact safe_alloc (m := 8) (ext := 0) (ww := 0) (rw := 0) (mw := 0) (st := .opn)
        (ic := true) h2 b1 b3 b2 (by simp) (by simp) (by omega) (by omega) (by simp) 0 hm
    have e' := setExtended_mod (c := { alloc f with state := .opn, inChans := true }) e d
    rw [e']
    split
    · exact base.of (by simp)
    · exact base.of (by simp)

/-- C102, partial: for any frames from the peer and any order of events no assertion fails and nothing is accessed outside of its array,
when the channel was made with a configured window of at least 2; missing: XID frames that set a window larger than the queue, writes
with a piece before the last that passes the packet size, and read callbacks that fail after the channel was closed. -/
theorem C102_peer_cannot_break_partial {f : Conf} (hf : confOk f = true) (h2 : 2 ≤ f.writewindow) (hm : f.maxWrite < 18446744073709551616)
    {c : Chan} (hc : c = openChan (alloc f) ∨ ∃ pf e d, c = acceptChan f pf e d) {l : List Ev} (hl : AllBenign c l) :
    ∃ c', run c l = some c' ∧ c'.writeLen ≤ c'.wr.length ∧ c'.sendLen ≤ c'.writeLen ∧ c'.writewindow ≤ c'.wr.length ∧
      c'.readPos < c'.rd.length := by
  have hs : Safe c := open_safe hf h2 hm hc
  obtain ⟨c', e, hs'⟩ := safe_run hs hl
  have h1 := hs'.wrl; have h2 := hs'.rdl; have h3 := hs'.wlen; have h4 := hs'.slen; have h5 := hs'.wwin; have h6 := hs'.rpos
  exact ⟨c', e, by omega, h4, by omega, by omega⟩

/-- A run with data both ways, a lost acknowledgement, a time-out and a close. -/
example : (exOpen exConf [.write [[1, 2]] 240, .tx .full, .rx (.info 0 0 true true [240, 9]), .tx .full, .t1, .tx .full,
    .rx (.sup .rr 1 true false), .readEn true, .deferred, .readRet (.ok 1), .close, .tx .full, .rx (.unn .ua true false [])]).any
      (fun c => c.state == .reportClose && c.writeLen == 0 && c.vr == 1) = true := by decide +kernel

/-! ## C103: the negotiated window and packet size -/

/-- C103, violated: an XID that gives only a receive packet size of 256 bytes, what every station can receive, makes the window of the
sender 0: no write is taken any more. -/
theorem C103_window_zero_violated :
    ∃ c, exOpen { exConf with maxWrite := 256 } [.rx (.unn .xid true true [0x82, 0x80, 0, 4, 6, 2, 8, 0])] = some c ∧
      c.state = .opn ∧ c.writeLen = 0 ∧ ∀ sg pid, write c sg pid = some (c, 0, 0) := by
  have h : (exOpen { exConf with maxWrite := 256 } [.rx (.unn .xid true true [0x82, 0x80, 0, 4, 6, 2, 8, 0])]).any
      (fun c => c.state == .opn && c.writeLen == 0 && c.writewindow == 0) = true := by decide +kernel
  obtain ⟨c, h1, h2⟩ := of_any h
  simp only [Bool.and_eq_true, beq_iff_eq] at h2
  refine ⟨c, h1, h2.1.1, h2.1.2, fun sg pid => ?_⟩
  unfold write
  simp [h2.1.1, h2.1.2, h2.2]

/-- C103, violated: a station that can receive packets of 4 bytes says so in its XID; the other one still takes a write of 6 bytes as one
packet, and the first one closes the connection when it comes. -/
theorem C103_size_violated :
    ∃ c, exOpen { exConf with maxWrite := 16 } [.rx (.unn .xid true true (formatXid { exConf with maxRead := 4 })), .tx .full] = some c ∧
      (write c [[1, 2, 3, 4, 5, 6]] 240).map (fun r => (r.2.1, r.2.2)) = some (0, 6) ∧
      (run (acceptChan { exConf with maxRead := 4 } true true []) [.tx .full, .tx .full, .rx (.info 0 0 false true [240, 1, 2, 3, 4, 5, 6])]).map
        (fun c => (c.state, c.inChans, c.err)) = some (.ioErr, false, geProtoerr) := by
  have h : (exOpen { exConf with maxWrite := 16 } [.rx (.unn .xid true true (formatXid { exConf with maxRead := 4 })), .tx .full]).any
      (fun c => (write c [[1, 2, 3, 4, 5, 6]] 240).map (fun r => (r.2.1, r.2.2)) == some (0, 6)) = true := by decide +kernel
  obtain ⟨c, h1, h2⟩ := of_any h
  exact ⟨c, h1, by simpa using h2, by decide +kernel⟩

/-- C103, violated: in modulo 8 an XID makes the window 20, so that 8 packets and 0 packets not acknowledged are the same. -/
theorem C103_window_modulo_violated :
    confOk { exConf with writewindow := 20 } = true ∧
    ∃ c, run (openChan (alloc { exConf with writewindow := 20 })) ([.tx .full, .rx (.unn .dm true false []), .tx .full, .rx (.unn .ua true false []),
        .rx (.unn .xid true true [0x82, 0x80, 0, 3, 8, 1, 20])] ++ List.replicate 8 (.write [[1]] 240)) = some c ∧
      c.modulo = 8 ∧ c.writewindow = 20 ∧ c.writeLen = 8 ∧ c.vs = 0 ∧ nrInRange c 0 = true ∧ (updateVa c 0).writeLen = 8 ∧
      ∀ nr, nr < 8 → nr ≠ 0 → nrInRange c nr = false := by
  refine ⟨by decide, ?_⟩
  have h : (run (openChan (alloc { exConf with writewindow := 20 })) ([.tx .full, .rx (.unn .dm true false []), .tx .full, .rx (.unn .ua true false []),
        .rx (.unn .xid true true [0x82, 0x80, 0, 3, 8, 1, 20])] ++ List.replicate 8 (.write [[1]] 240))).any
      (fun c => c.modulo == 8 && c.writewindow == 20 && c.writeLen == 8 && c.vs == 0) = true := by decide +kernel
  obtain ⟨c, h1, h2⟩ := of_any h
  simp only [Bool.and_eq_true, beq_iff_eq] at h2
  obtain ⟨⟨⟨a, b⟩, d⟩, e⟩ := h2
  refine ⟨c, h1, a, b, d, e, ?_, ?_, ?_⟩
  · simp [nrInRange, a, d, e, subSeq, seqInRange, u8]
  · simp [updateVa, a, d, e, subSeq, u8]
  · intro nr hn h0
    simp [nrInRange, a, d, e, subSeq, seqInRange, u8]
    omega

/-- C103, partial: the XID made by a station of this library sets the window of the other to the smaller of the receive window of the
first and the configured send window, whatever the window was, and an XID command is answered; missing: other XIDs, and the packet size,
which is not changed. -/
theorem C103_window_partial {c : Chan} (hs : c.state = .opn) {g : Conf} (h0 : 0 < g.readwindow) (h1 : g.readwindow ≤ 127)
    (hw : c.conf.writewindow ≤ 127) (pf : Bool) :
    (∃ c', handleXid c pf false (formatXid g) = some c' ∧ c'.writewindow = min g.readwindow c.conf.writewindow ∧ c'.maxWrite = c.maxWrite ∧
      c'.cmdrsp = c.cmdrsp ∧ c'.wr = c.wr ∧ c'.writeLen = c.writeLen) ∧
    (∃ c', handleXid c pf true (formatXid g) = some c' ∧ c'.writewindow = min g.readwindow c.conf.writewindow ∧ c'.maxWrite = c.maxWrite ∧
      (c.cmdrsp.length < 8 → c'.cmdrsp = c.cmdrsp ++ [⟨.unn .xid, pf, false, []⟩]) ∧ c'.wr = c.wr ∧ c'.writeLen = c.writeLen) := by
  have hmin : (if g.readwindow > c.conf.writewindow then c.conf.writewindow else g.readwindow) = min g.readwindow c.conf.writewindow := by
    split <;> omega
  constructor
  · refine ⟨_, handleXid_gensio hs h0 h1 hw pf false, ?_⟩
    simp [xidEffect, hmin]
  · refine ⟨_, handleXid_gensio hs h0 h1 hw pf true, ?_⟩
    simp only [if_true, sendRsp, sendCr]
    split
    · simp [xidEffect, hmin]
    · rename_i h
      refine ⟨by simp [xidEffect, hmin], rfl, fun h' => absurd h' h, rfl, rfl⟩

example : (exOpen exConf [.rx (.unn .xid true true (formatXid { exConf with readwindow := 3 }))]).map (fun c => (c.writewindow, c.cmdrsp.length)) =
    some (3, 1) := by decide +kernel

/-- A parameter in an XID: its number, its length and its bytes. -/
def xidEnc (ps : List (UInt8 × List UInt8)) : List UInt8 := ps.flatMap fun p => p.1 :: UInt8.ofNat p.2.length :: p.2

theorem xidLoop_enc {ps : List (UInt8 × List UInt8)} (hp : ∀ p ∈ ps, 1 ≤ p.2.length ∧ p.2.length ≤ 4) : ∀ (c : Chan) (rest : List UInt8) (n : Nat),
    xidLoop c (xidEnc ps ++ rest) ((xidEnc ps).length + n) = xidLoop (ps.foldl (fun c p => xidParm c p.1.toNat (xidVal p.2)) c) rest n := by
  induction ps with
  | nil => intro c rest n; simp [xidEnc]
  | cons p ps ih =>
    intro c rest n
    have hq := hp p (List.mem_cons_self ..)
    have h8 : (UInt8.ofNat p.2.length).toNat = p.2.length := by
      rw [UInt8.toNat_ofNat']; omega
    have he : xidEnc (p :: ps) ++ rest = p.1 :: UInt8.ofNat p.2.length :: (p.2 ++ (xidEnc ps ++ rest)) := by simp [xidEnc]
    have hl : (xidEnc (p :: ps)).length + n = p.2.length + 2 + ((xidEnc ps).length + n) := by simp [xidEnc]; omega
    rw [he, hl, xidLoop, if_neg (by omega), if_neg (by omega)]
    rw [h8, if_neg (by omega), if_neg (by omega), if_neg (by simp), List.take_left, List.drop_left,
      show p.2.length + 2 + ((xidEnc ps).length + n) - (p.2.length + 2) = (xidEnc ps).length + n by omega]
    exact ih (fun q hq => hp q (List.mem_cons_of_mem _ hq)) _ _ _

/-- C103, partial: an XID whose parameters have 1 to 4 bytes is used parameter by parameter, and a command is answered; bytes after the
group are not used; missing: what the parameters do (above). -/
theorem C103_group_partial {c : Chan} (hs : c.state = .opn) {ps : List (UInt8 × List UInt8)} (hp : ∀ p ∈ ps, 1 ≤ p.2.length ∧ p.2.length ≤ 4)
    (hn : (xidEnc ps).length < 65536) (extra : List UInt8) (pf isCmd : Bool) :
    handleXid c pf isCmd ([0x82, 0x80] ++ be16 (xidEnc ps).length ++ xidEnc ps ++ extra) =
      some (let c' := ps.foldl (fun c p => xidParm c p.1.toNat (xidVal p.2)) c
        if isCmd then sendRsp c' (.unn .xid) pf else c') := by
  have hb : (UInt8.ofNat ((xidEnc ps).length / 256)).toNat * 256 + (UInt8.ofNat (xidEnc ps).length).toNat = (xidEnc ps).length := by
    rw [UInt8.toNat_ofNat', UInt8.toNat_ofNat']; omega
  have hx := xidLoop_enc hp c extra 0
  have h0 : ∀ d, xidLoop d extra 0 = some (d, true) := fun d => by unfold xidLoop; simp
  rw [h0, Nat.add_zero] at hx
  unfold handleXid
  rw [if_neg (by rw [hs]; simp)]
  simp only [be16, List.cons_append, List.nil_append, ne_eq, not_true, if_false]
  rw [hb, if_neg (by simp), hx]
  cases isCmd <;> simp

/-- C103, partial: at a parameter with no bytes or more than 4 an XID is given up: it is not answered, and what comes after is not used. -/
theorem C103_bad_length_partial {c : Chan} (hs : c.state = .opn) {ps : List (UInt8 × List UInt8)} (hp : ∀ p ∈ ps, 1 ≤ p.2.length ∧ p.2.length ≤ 4)
    {ind len : UInt8} (hl : len = 0 ∨ 4 < len.toNat) (rest : List UInt8) (hn : (xidEnc ps ++ ind :: len :: rest).length < 65536) (pf isCmd : Bool) :
    handleXid c pf isCmd ([0x82, 0x80] ++ be16 (xidEnc ps ++ ind :: len :: rest).length ++ (xidEnc ps ++ ind :: len :: rest)) =
      some (ps.foldl (fun c p => xidParm c p.1.toNat (xidVal p.2)) c) := by
  generalize ht : (xidEnc ps ++ ind :: len :: rest).length = t at hn ⊢
  have hb : (UInt8.ofNat (t / 256)).toNat * 256 + (UInt8.ofNat t).toNat = t := by
    rw [UInt8.toNat_ofNat', UInt8.toNat_ofNat']; omega
  have hx := xidLoop_enc hp c (ind :: len :: rest) (2 + rest.length)
  have h0 : ∀ d, xidLoop d (ind :: len :: rest) (2 + rest.length) = some (d, false) := fun d => by
    rw [xidLoop, if_neg (by omega), if_neg (by omega)]
    rw [if_pos]
    rcases hl with rfl | h
    · left; decide
    · right; exact h
  rw [h0, show (xidEnc ps).length + (2 + rest.length) = t by simp at ht; omega] at hx
  unfold handleXid
  rw [if_neg (by rw [hs]; simp)]
  simp only [be16, List.cons_append, List.nil_append, ne_eq, not_true, if_false]
  rw [hb, if_neg (by omega), hx]

example : xidEnc [(8, [3]), (10, [0, 9])] = [8, 1, 3, 10, 2, 0, 9] ∧
    (exOpen exConf [.rx (.unn .xid true true [0x82, 0x80, 0, 5, 8, 1, 3, 10, 0])]).map (fun c => (c.writewindow, c.cmdrsp.length)) = some (3, 0) ∧
    (exOpen exConf [.rx (.unn .xid true true [0x82, 0x80, 0, 3, 8, 1, 3, 10, 0])]).map (fun c => (c.writewindow, c.cmdrsp.length)) = some (3, 1) := by
  decide +kernel

end Gensio.Ax25
