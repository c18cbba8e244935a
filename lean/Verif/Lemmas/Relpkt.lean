import Verif.Model.Relpkt

/-! Lemmas about the transmit queue of the reliable packet filter, seen as a list. -/

namespace Gensio.Relpkt

theorem slot_eq {f i m : Nat} (hf : f < m) (hi : i < m) : (f + i) % m = if f + i < m then f + i else f + i - m := by
  split
  · exact Nat.mod_eq_of_lt ‹_›
  · rw [Nat.mod_eq_sub_mod (by omega)]
    exact Nat.mod_eq_of_lt (by omega)

theorem slot_inj {f i j m : Nat} (hf : f < m) (hi : i < m) (hj : j < m) (h : (f + i) % m = (f + j) % m) : i = j := by
  rw [slot_eq hf hi, slot_eq hf hj] at h
  split at h <;> split at h <;> omega

theorem slot_succ {f j m : Nat} (hf : f < m) : ((f + 1) % m + j) % m = (f + (j + 1)) % m := by
  rw [Nat.mod_add_mod]
  congr 1
  omega

/-- The transmit side holds the packets `Q`, from the first unacknowledged one on. -/
structure TxQ (t : Tx) (M : Nat) (Q : List XPkt) : Prop where
  len : t.pkts.length = M
  maxM : t.max ≤ M
  m255 : M ≤ 255
  qmax : Q.length ≤ t.max
  ack : t.acked < 256
  snd : t.send = (t.acked + Q.length) % 256
  fst : t.first < t.max ∨ (t.max = 0 ∧ t.first = 0)
  slots : ∀ j (h : j < Q.length), t.pkts[(t.first + j) % t.max]? = some Q[j]
  wait : t.waiting = Q.countP (fun p => !p.sent)

theorem TxQ.first_lt {t : Tx} {M : Nat} {Q : List XPkt} (h : TxQ t M Q) {j : Nat} (hj : j < Q.length) :
    t.first < t.max := by
  have := h.qmax
  rcases h.fst with h | h <;> omega

theorem TxQ.slot {t : Tx} {M : Nat} {Q : List XPkt} (h : TxQ t M Q) {j : Nat} (hj : j < t.max) :
    t.slot j = some ((t.first + j) % t.max) ∧ (t.first + j) % t.max < t.pkts.length := by
  have h1 := h.maxM
  have h2 := h.m255
  have h3 := h.len
  have h4 : (t.first + j) % t.max < t.max := Nat.mod_lt _ (by omega)
  refine ⟨?_, by omega⟩
  unfold Tx.slot u8
  rw [if_neg (by omega), Nat.mod_eq_of_lt (a := j) (by omega), Nat.mod_eq_of_lt (a := (t.first + j) % t.max) (by omega)]

theorem TxQ.sub_send {t : Tx} {M : Nat} {Q : List XPkt} (h : TxQ t M Q) : sub8 t.send t.acked = Q.length := by
  have h1 := h.snd
  have h2 := h.ack
  have h3 := h.qmax
  have h4 := h.maxM
  have h5 := h.m255
  unfold sub8
  omega

/-- Replacing a packet of the queue in its slot. -/
theorem TxQ.set {t : Tx} {M : Nat} {Q : List XPkt} (h : TxQ t M Q) {j : Nat} (hj : j < Q.length) (p : XPkt) (w : Nat)
    (hw : w = (Q.set j p).countP (fun p => !p.sent)) :
    TxQ { t with pkts := t.pkts.set ((t.first + j) % t.max) p, waiting := w } M (Q.set j p) := by
  have hq := h.qmax
  have hf := h.first_lt hj
  refine ⟨by simp [h.len], h.maxM, h.m255, by simpa using hq, h.ack, by simpa using h.snd, h.fst, ?_, hw⟩
  intro k hk
  simp only [List.length_set] at hk
  simp only [List.getElem?_set, List.getElem_set]
  have hl := (h.slot (j := j) (by omega)).2
  by_cases e : j = k
  · subst e
    simp [hl]
  · rw [if_neg, if_neg e]
    · exact h.slots k hk
    · intro c
      exact e (slot_inj hf (by omega) (by omega) c)

theorem countP_set_sent {Q : List XPkt} {j : Nat} (hj : j < Q.length) (p : XPkt) :
    (Q.set j p).countP (fun p => !p.sent) + (if Q[j].sent then 0 else 1) =
      Q.countP (fun p => !p.sent) + (if p.sent then 0 else 1) := by
  rw [List.countP_set (h := hj)]
  have hp : Q[j].sent = false → 0 < Q.countP (fun p => !p.sent) := by
    intro h
    exact List.countP_pos_iff.mpr ⟨Q[j], List.getElem_mem hj, by simp [h]⟩
  cases h : Q[j].sent
  · have := hp h
    cases h' : p.sent <;> simp <;> omega
  · cases h' : p.sent <;> simp

/-- `resend_packets` marks exactly the packets of the range as not sent. -/
theorem TxQ.resend {M : Nat} : ∀ (n i : Nat) {t : Tx} {Q : List XPkt}, TxQ t M Q → i + n ≤ Q.length →
    ∃ pk w Q', t.resend i n = some { t with pkts := pk, waiting := w } ∧
      TxQ { t with pkts := pk, waiting := w } M Q' ∧
      ∀ k, Q'[k]? = Q[k]?.map (fun p => if i ≤ k ∧ k < i + n then { p with sent := false } else p)
  | 0, i, t, Q, h, _ => by
    refine ⟨t.pkts, t.waiting, Q, rfl, h, ?_⟩
    intro k
    cases Q[k]? with
    | none => rfl
    | some p =>
      simp only [Option.map_some]
      rw [if_neg (by omega)]
  | n + 1, i, t, Q, h, hl => by
    have hq := h.qmax
    have hi : i < Q.length := by omega
    have hs := h.slots i hi
    simp only [Tx.resend, (h.slot (j := i) (by omega)).1, hs]
    cases hsent : Q[i].sent
    · simp only [Bool.false_eq_true, if_false]
      obtain ⟨pk, w, Q', e, hQ, hk⟩ := TxQ.resend n (i + 1) h (by omega)
      refine ⟨pk, w, Q', e, hQ, ?_⟩
      intro k
      rw [hk k]
      cases hc : Q[k]? with
      | none => rfl
      | some p =>
        simp only [Option.map_some, Option.some.injEq]
        by_cases e : k = i
        · subst e
          rw [if_neg (by omega), if_pos (by omega)]
          rw [List.getElem?_eq_getElem hi] at hc
          cases hc
          cases hp : Q[k]
          rw [hp] at hsent
          simp_all
        · by_cases c : i + 1 ≤ k ∧ k < i + 1 + n
          · rw [if_pos c, if_pos (by omega)]
          · rw [if_neg c, if_neg (by omega)]
    · simp only [if_true]
      have h2 := h.set hi { Q[i] with sent := false } (t.waiting + 1) (by
        have := countP_set_sent hi { Q[i] with sent := false }
        simp only [hsent] at this
        have := h.wait
        simp_all)
      obtain ⟨pk, w, Q', e, hQ, hk⟩ := TxQ.resend n (i + 1) h2 (by simpa using (by omega : i + 1 + n ≤ Q.length))
      refine ⟨pk, w, Q', e, hQ, ?_⟩
      intro k
      rw [hk k, List.getElem?_set]
      by_cases e : i = k
      · subst e
        rw [if_pos rfl, if_pos hi, List.getElem?_eq_getElem hi]
        simp only [Option.map_some, Option.some.injEq]
        rw [if_neg (by omega), if_pos (by omega)]
      · rw [if_neg e]
        cases hc : Q[k]? with
        | none => rfl
        | some p =>
          simp only [Option.map_some, Option.some.injEq]
          by_cases c : i + 1 ≤ k ∧ k < i + 1 + n
          · rw [if_pos c, if_pos (by omega)]
          · rw [if_neg c, if_neg (by omega)]

/-- If a packet is waiting, the search for it finds it. -/
theorem TxQ.firstLoop {M : Nat} {t : Tx} {Q : List XPkt} (h : TxQ t M Q) : ∀ (n i : Nat), i + n = Q.length →
    (∃ k, ∃ hk : k < Q.length, i ≤ k ∧ Q[k].sent = false) →
    ∃ k, ∃ hk : k < Q.length, t.firstLoop i n = some ((t.first + k) % t.max) ∧ Q[k].sent = false ∧
      ∀ m (hm : m < k), i ≤ m → (Q[m]'(by omega)).sent = true
  | 0, i, hl, ⟨k, hk, hik, _⟩ => by omega
  | n + 1, i, hl, ⟨k, hk, hik, hks⟩ => by
    have hq := h.qmax
    have hi : i < Q.length := by omega
    simp only [Tx.firstLoop, (h.slot (j := i) (by omega)).1, h.slots i hi]
    cases hs : Q[i].sent
    · refine ⟨i, hi, by simp, hs, ?_⟩
      intro m hm hm2
      omega
    · have hne : k ≠ i := by
        intro e
        subst e
        rw [hs] at hks
        cases hks
      obtain ⟨k', hk', e, hk2, hm⟩ := TxQ.firstLoop h n (i + 1) (by omega) ⟨k, hk, by omega, hks⟩
      refine ⟨k', hk', by simpa using e, hk2, ?_⟩
      intro m hm1 hm2
      by_cases e : m = i
      · subst e
        exact hs
      · exact hm m hm1 (by omega)

theorem TxQ.firstToSend {M : Nat} {t : Tx} {Q : List XPkt} (h : TxQ t M Q) (hw : t.waiting ≠ 0) :
    ∃ k, ∃ hk : k < Q.length, t.firstToSend = some ((t.first + k) % t.max) ∧ Q[k].sent = false ∧
      ∀ m (hm : m < k), (Q[m]'(by omega)).sent = true := by
  unfold Tx.firstToSend
  rw [h.sub_send]
  rw [h.wait] at hw
  obtain ⟨p, hp, hs⟩ := List.countP_pos_iff.mp (Nat.pos_of_ne_zero hw)
  obtain ⟨k, hk, e⟩ := List.getElem_of_mem hp
  obtain ⟨k', hk', e1, e2, e3⟩ := h.firstLoop Q.length 0 (by omega) ⟨k, hk, by omega, by simpa [e] using hs⟩
  exact ⟨k', hk', e1, e2, fun m hm => e3 m hm (by omega)⟩

/-- Acknowledging `n` packets drops them. -/
theorem TxQ.ackLoop {M : Nat} : ∀ (n : Nat) {t : Tx} {Q : List XPkt}, TxQ t M Q → n ≤ Q.length →
    ∃ t', t.ackLoop n = some t' ∧ TxQ t' M (Q.drop n) ∧ t'.max = t.max ∧ t'.maxSize = t.maxSize ∧ t'.send = t.send ∧
      t'.acked = (t.acked + n) % 256
  | 0, t, Q, h, _ => ⟨t, rfl, by simpa using h, rfl, rfl, rfl, by have := h.ack; omega⟩
  | n + 1, t, Q, h, hl => by
    have hq := h.qmax
    have h0 : 0 < Q.length := by omega
    have hf := h.first_lt h0
    have hm := h.maxM
    have h5 := h.m255
    have hs := h.slots 0 h0
    rw [Nat.add_zero, Nat.mod_eq_of_lt hf] at hs
    have hsnd := h.snd
    have hcons : Q = Q[0] :: Q.drop 1 := by
      cases Q with
      | nil => simp at h0
      | cons a b => rfl
    have hwait : t.waiting = (if Q[0].sent then 0 else 1) + (Q.drop 1).countP (fun p => !p.sent) := by
      rw [h.wait]
      conv => lhs; rw [hcons]
      rw [List.countP_cons]
      cases Q[0].sent <;> simp <;> omega
    have key : ∀ (pk : List XPkt) (w : Nat), pk.length = M → w = (Q.drop 1).countP (fun p => !p.sent) →
        (∀ i, i ≠ t.first → pk[i]? = t.pkts[i]?) →
        TxQ { t with pkts := pk, waiting := w, first := (t.first + 1) % t.max, acked := u8 (t.acked + 1) } M (Q.drop 1) := by
      intro pk w hpk hw hot
      refine ⟨hpk, hm, h5, by simp; omega, Nat.mod_lt _ (by omega), ?_, Or.inl (Nat.mod_lt _ (by omega)), ?_, hw⟩
      · simp only [List.length_drop, u8]
        omega
      · intro j hj
        simp only [List.length_drop] at hj
        simp only [slot_succ hf]
        rw [hot]
        · rw [h.slots (j + 1) (by omega)]
          simp only [List.getElem_drop, Nat.add_comm 1 j]
        · intro c
          have := slot_inj (i := j + 1) (j := 0) hf (by omega) (by omega) (by rw [c, Nat.add_zero, Nat.mod_eq_of_lt hf])
          omega
    by_cases hm1 : t.max = 1
    · -- a single slot
      have hsl : t.slot 1 = some ((t.first + 1) % t.max) := by
        unfold Tx.slot u8
        have hf0 : t.first = 0 := by omega
        rw [if_neg (by omega), hm1]
        simp [hf0]
      simp only [Tx.ackLoop, hs, hsl]
      cases hsent : Q[0].sent
      · have hw0 : t.waiting ≠ 0 := by rw [hwait, hsent]; simp
        rw [if_neg (by simp), if_neg hw0]
        obtain ⟨t', e, hQ, e1, e2, e3, e4⟩ := TxQ.ackLoop n (key (t.pkts.set t.first { Q[0] with sent := true })
          (t.waiting - 1) (by simp [h.len]) (by rw [hwait, hsent]; simp)
          (by intro i hi; rw [List.getElem?_set_ne (by omega)])) (by simp; omega)
        refine ⟨t', e, by simpa [Nat.add_comm] using hQ, e1, e2, e3, ?_⟩
        rw [e4]
        simp only [u8]
        omega
      · rw [if_pos rfl]
        obtain ⟨t', e, hQ, e1, e2, e3, e4⟩ := TxQ.ackLoop n (key t.pkts t.waiting h.len (by rw [hwait, hsent]; simp)
          (by intro i hi; rfl)) (by simp; omega)
        refine ⟨t', e, by simpa [Nat.add_comm] using hQ, e1, e2, e3, ?_⟩
        rw [e4]
        simp only [u8]
        omega
    · have hsl := (h.slot (j := 1) (by omega)).1
      simp only [Tx.ackLoop, hs, hsl]
      cases hsent : Q[0].sent
      · have hw0 : t.waiting ≠ 0 := by rw [hwait, hsent]; simp
        rw [if_neg (by simp), if_neg hw0]
        obtain ⟨t', e, hQ, e1, e2, e3, e4⟩ := TxQ.ackLoop n (key (t.pkts.set t.first { Q[0] with sent := true })
          (t.waiting - 1) (by simp [h.len]) (by rw [hwait, hsent]; simp)
          (by intro i hi; rw [List.getElem?_set_ne (by omega)])) (by simp; omega)
        refine ⟨t', e, by simpa [Nat.add_comm] using hQ, e1, e2, e3, ?_⟩
        rw [e4]
        simp only [u8]
        omega
      · rw [if_pos rfl]
        obtain ⟨t', e, hQ, e1, e2, e3, e4⟩ := TxQ.ackLoop n (key t.pkts t.waiting h.len (by rw [hwait, hsent]; simp)
          (by intro i hi; rfl)) (by simp; omega)
        refine ⟨t', e, by simpa [Nat.add_comm] using hQ, e1, e2, e3, ?_⟩
        rw [e4]
        simp only [u8]
        omega

theorem seqInside_iff {seq first next : Nat} (h1 : seq < 256) (h2 : first < 256) (h3 : next < 256) :
    seqInside seq first next = true ↔ sub8 seq first < sub8 next first := by
  unfold seqInside sub8
  split <;> simp <;> omega

/-- `handle_ack`: an acknowledgement in the window drops packets, another one is refused. -/
theorem TxQ.handleAck {M : Nat} {t : Tx} {Q : List XPkt} (h : TxQ t M Q) {seq : Nat} (hs : seq < 256) :
    if sub8 seq t.acked ≤ Q.length ∧ Q.length < 255 then
      ∃ t', t.handleAck seq = some (some t') ∧ TxQ t' M (Q.drop (sub8 seq t.acked)) ∧ t'.max = t.max ∧
        t'.maxSize = t.maxSize ∧ t'.send = t.send ∧ t'.acked = seq
    else t.handleAck seq = some none := by
  have h1 := h.snd
  have h2 := h.ack
  have h3 := h.qmax
  have h4 := h.maxM
  have h5 := h.m255
  have hin : seqInside seq t.acked (u8 (t.send + 1)) = true ↔ sub8 seq t.acked ≤ Q.length ∧ Q.length < 255 := by
    rw [seqInside_iff hs h2 (by unfold u8; omega)]
    unfold sub8 u8
    omega
  unfold Tx.handleAck
  split
  · rename_i c
    rw [if_pos (hin.mpr c)]
    obtain ⟨t', e, hQ, e1, e2, e3, e4⟩ := h.ackLoop _ c.1
    refine ⟨t', by rw [e], hQ, e1, e2, e3, ?_⟩
    rw [e4]
    unfold sub8
    omega
  · rename_i c
    rw [if_neg (by rw [hin]; exact c)]

/-- A pair of a resend request that is not reversed. -/
theorem TxQ.resendPkts {M : Nat} {t : Tx} {Q : List XPkt} (h : TxQ t M Q) {first n : Nat}
    (hn : sub8 first t.acked + n ≤ Q.length) {last : Nat} (hl : sub8 last first = n) :
    ∃ pk w Q', t.resendPkts first last = some { t with pkts := pk, waiting := w } ∧
      TxQ { t with pkts := pk, waiting := w } M Q' ∧
      ∀ k, Q'[k]? = Q[k]?.map (fun p =>
        if sub8 first t.acked ≤ k ∧ k < sub8 first t.acked + n then { p with sent := false } else p) := by
  unfold Tx.resendPkts
  rw [hl]
  exact h.resend n _ hn

/-- What matters of a waiting packet: everything but the ack byte and whether it was sent. -/
def XPkt.norm (p : XPkt) : List UInt8 × Bool := (p.data.set 1 0, p.eom)

theorem norm_of_pointwise {Q Q' : List XPkt} {c : Nat → Bool}
    (h : ∀ k, Q'[k]? = Q[k]?.map (fun p => if c k then { p with sent := false } else p)) :
    Q'.map XPkt.norm = Q.map XPkt.norm := by
  apply List.ext_getElem?
  intro k
  simp only [List.getElem?_map, h k, Option.map_map]
  cases Q[k]? with
  | none => rfl
  | some p =>
    simp only [Option.map_some, Function.comp]
    split <;> rfl

theorem TxQ.resendPkts' {M : Nat} {t : Tx} {Q : List XPkt} (h : TxQ t M Q) {first last : Nat}
    (hn : sub8 first t.acked + sub8 last first ≤ Q.length) :
    ∃ pk w Q', t.resendPkts first last = some { t with pkts := pk, waiting := w } ∧
      TxQ { t with pkts := pk, waiting := w } M Q' ∧ Q'.map XPkt.norm = Q.map XPkt.norm := by
  obtain ⟨pk, w, Q', e, hQ, hk⟩ := h.resendPkts hn rfl
  refine ⟨pk, w, Q', e, hQ, norm_of_pointwise
    (c := fun k => decide (sub8 first t.acked ≤ k ∧ k < sub8 first t.acked + sub8 last first)) ?_⟩
  intro k
  rw [hk k]
  simp only [decide_eq_true_eq]

/-- Resending everything. -/
theorem TxQ.resendAll {M : Nat} {t : Tx} {Q : List XPkt} (h : TxQ t M Q) :
    ∃ pk w Q', t.resendPkts t.acked t.send = some { t with pkts := pk, waiting := w } ∧
      TxQ { t with pkts := pk, waiting := w } M Q' ∧ Q'.map XPkt.norm = Q.map XPkt.norm := by
  apply h.resendPkts'
  have h2 := h.ack
  rw [h.sub_send]
  unfold sub8
  omega

/-- In a resend request no pair inside the window runs backwards. -/
def NoRev (acked send : Nat) : List UInt8 → Prop
  | s :: e :: rest =>
    (seqInside s.toNat acked send = true → seqInside e.toNat acked send = true →
      sub8 s.toNat acked ≤ sub8 e.toNat acked) ∧ NoRev acked send rest
  | _ => True

theorem TxQ.onResend {M : Nat} : ∀ (n : Nat) (buf : List UInt8), buf.length ≤ n → ∀ {t : Tx} {Q : List XPkt},
    TxQ t M Q → NoRev t.acked t.send buf →
    ∃ pk w res Q', t.onResend buf = some ({ t with pkts := pk, waiting := w }, res) ∧
      TxQ { t with pkts := pk, waiting := w } M Q' ∧ Q'.map XPkt.norm = Q.map XPkt.norm
  | 0, [], _, t, Q, h, _ => ⟨t.pkts, t.waiting, .deliver, Q, rfl, h, rfl⟩
  | _ + 1, [], _, t, Q, h, _ => ⟨t.pkts, t.waiting, .deliver, Q, rfl, h, rfl⟩
  | _ + 1, [_], _, t, Q, h, _ => ⟨t.pkts, t.waiting, .deliver, Q, rfl, h, rfl⟩
  | n + 1, s :: e :: rest, hl, t, Q, h, hr => by
    simp only [List.length_cons] at hl
    have h1 := h.sub_send
    have h2 := h.ack
    have hsn : t.send < 256 := by rw [h.snd]; omega
    have hsl := s.toNat_lt
    have hel := e.toNat_lt
    simp only [Tx.onResend]
    by_cases ci : seqInside s.toNat t.acked t.send = true
    · by_cases ce : seqInside e.toNat t.acked t.send = true
      · have hle := hr.1 ci ce
        rw [if_neg (by simp [ci]), if_neg (by simp [ce])]
        rw [seqInside_iff (by omega) h2 hsn, h1] at ci ce
        obtain ⟨pk, w, Q', e', hQ, hk⟩ := h.resendPkts' (first := s.toNat) (last := u8 (e.toNat + 1))
          (by unfold sub8 u8 at *; omega)
        rw [e']
        obtain ⟨pk2, w2, res, Q2, e2, hQ2, hk2⟩ := TxQ.onResend n rest (by omega) hQ hr.2
        exact ⟨pk2, w2, res, Q2, e2, hQ2, hk2.trans hk⟩
      · rw [if_neg (by simp [ci]), if_pos (by simp [ce])]
        exact ⟨t.pkts, t.waiting, .proto, Q, rfl, h, rfl⟩
    · rw [if_pos (by simp [ci])]
      exact ⟨t.pkts, t.waiting, .proto, Q, rfl, h, rfl⟩

/-! ### Taking data from the user -/

theorem fill_spec (max : Nat) : ∀ (sg : List (List UInt8)) (d : List UInt8), d.length ≤ max →
    (fill max sg d).1 = (d ++ sg.flatten).take max ∧ ((fill max sg d).2 = true → max < (d ++ sg.flatten).length)
  | [], d, h => by simp [fill, List.take_of_length_le h]
  | b :: bs, d, h => by
    unfold fill
    split
    · simp only [List.flatten_cons, List.length_append, List.take_append, List.take_of_length_le h, forall_const]
      refine ⟨?_, by omega⟩
      rw [show max - d.length - b.length = 0 by omega]
      simp
    · split
      · rename_i _ he
        simp only [List.flatten_cons, ← List.append_assoc]
        rw [List.take_append, ← he]
        simp only [Nat.sub_self, List.take_zero, List.append_nil, Bool.false_eq_true, false_implies, and_true]
        exact (List.take_of_length_le (Nat.le_refl _)).symm
      · simp only [List.flatten_cons, ← List.append_assoc]
        exact fill_spec max bs (d ++ b) (by simp; omega)

theorem TxQ.nrQueued {M : Nat} {t : Tx} {Q : List XPkt} (h : TxQ t M Q) (hl : t.nrQueued < t.max) :
    t.nrQueued = Q.length := by
  have h1 := h.snd
  have h2 := h.ack
  have h3 := h.qmax
  have h4 := h.maxM
  have h5 := h.m255
  unfold Tx.nrQueued at *
  split at hl
  · rw [if_pos ‹_›]
    omega
  · omega

/-- Taking data appends a packet with the first bytes of the data to the queue, or does nothing. -/
theorem TxQ.put' {M : Nat} {t : Tx} {Q : List XPkt} (h : TxQ t M Q) {cap : Nat} (hc : t.maxSize ≤ cap)
    (sg : List (List UInt8)) (eom : Bool) :
    (t.put cap sg eom = some (t, 0) ∧ (sg = [] ∨ t.nrQueued ≥ t.max ∨ min t.maxSize sg.flatten.length = 0)) ∨
    ∃ t' p, t.put cap sg eom = some (t', min t.maxSize sg.flatten.length) ∧ 0 < min t.maxSize sg.flatten.length ∧
      TxQ t' M (Q ++ [p]) ∧ t'.max = t.max ∧ t'.maxSize = t.maxSize ∧ t'.acked = t.acked ∧ t'.send = u8 (t.send + 1) ∧
      p.sent = false ∧
      p.data = [UInt8.ofNat (0x20 + p.eom.toNat), 0, UInt8.ofNat t.send] ++ sg.flatten.take t.maxSize ∧
      (eom = true → sg.flatten.length ≤ t.maxSize → p.eom = true) := by
  by_cases c : sg = [] ∨ t.nrQueued ≥ t.max
  · left
    rw [Tx.put, if_pos c]
    exact ⟨rfl, by rcases c with c | c <;> simp [c]⟩
  · have hnq : t.nrQueued < t.max := by
      by_cases c2 : t.nrQueued ≥ t.max
      · exact absurd (Or.inr c2) c
      · omega
    have he := h.nrQueued hnq
    have hsl := h.slot (j := Q.length) (by omega)
    have hM := h.maxM
    have h255 := h.m255
    obtain ⟨hf, hf2⟩ := fill_spec t.maxSize sg [] (by simp)
    simp only [List.nil_append] at hf hf2
    have hgp : ∃ p, t.pkts[(t.first + Q.length) % t.max]? = some p := ⟨_, List.getElem?_eq_getElem hsl.2⟩
    obtain ⟨p, hp⟩ := hgp
    rw [Tx.put, if_neg c, he, hsl.1]
    simp only [hp]
    generalize hfill : fill t.maxSize sg [] = fr at *
    obtain ⟨payload, trunc⟩ := fr
    simp only at hf hf2
    subst hf
    simp only
    rw [if_neg (by simp; omega)]
    by_cases c0 : 0 < min t.maxSize sg.flatten.length
    · right
      rw [if_pos (by simpa using c0)]
      rw [List.length_take]
      refine ⟨_, ⟨[UInt8.ofNat (0x20 + (p.eom || (!trunc && eom)).toNat), 0, UInt8.ofNat t.send] ++
        sg.flatten.take t.maxSize, false, p.eom || (!trunc && eom)⟩, rfl, c0, ?_, rfl, rfl, rfl, rfl, rfl, rfl, ?_⟩
      · have hf := (by rcases h.fst with h | h <;> omega : t.first < t.max)
        refine ⟨by simp [h.len], hM, h255, by simp; omega, h.ack, ?_, h.fst, ?_, ?_⟩
        · simp only [List.length_append, List.length_cons, List.length_nil]
          rw [h.snd]
          unfold u8
          omega
        · intro j hj
          simp only [List.length_append, List.length_cons, List.length_nil] at hj
          simp only [List.getElem?_set]
          by_cases e : j = Q.length
          · subst e
            rw [if_pos rfl, if_pos hsl.2]
            simp
          · rw [if_neg]
            · rw [h.slots j (by omega), List.getElem_append_left (by omega)]
            · intro c
              exact e (slot_inj hf (by omega) (by omega) c.symm)
        · simp [List.countP_append, h.wait]
      · intro h1 h2
        simp only [h1, Bool.and_true]
        cases trunc with
        | false => simp
        | true => have := hf2 rfl; omega
    · left
      rw [if_neg (by simpa using c0)]
      exact ⟨rfl, Or.inr (Or.inr (by omega))⟩

theorem TxQ.put {M : Nat} {t : Tx} {Q : List XPkt} (h : TxQ t M Q) {cap : Nat} (hc : t.maxSize ≤ cap)
    (sg : List (List UInt8)) (eom : Bool) :
    t.put cap sg eom = some (t, 0) ∨
    ∃ t' p, t.put cap sg eom = some (t', min t.maxSize sg.flatten.length) ∧ 0 < min t.maxSize sg.flatten.length ∧
      TxQ t' M (Q ++ [p]) ∧ t'.max = t.max ∧ t'.maxSize = t.maxSize ∧ t'.acked = t.acked ∧ t'.send = u8 (t.send + 1) ∧
      p.sent = false ∧
      p.data = [UInt8.ofNat (0x20 + p.eom.toNat), 0, UInt8.ofNat t.send] ++ sg.flatten.take t.maxSize ∧
      (eom = true → sg.flatten.length ≤ t.maxSize → p.eom = true) :=
  (h.put' hc sg eom).imp And.left id

/-! ### Sending packets -/

/-- What an end sends. -/
inductive Emits (r : Rp) (Q : List XPkt) : List UInt8 → Prop
  | init : r.sendInit = true → Emits r Q r.initPkt
  | data (k : Nat) (hk : k < Q.length) : Q[k].sent = false → Emits r Q (Q[k].data.set 1 (UInt8.ofNat r.rx.del))
  | resend : r.sendResend = true → Emits r Q (0x30 :: r.resend)
  | ack : Emits r Q [0x20, UInt8.ofNat r.rx.del, 0]
  | close : Emits r Q [0x40, 0, 0]

theorem norm_set1 (p : XPkt) (x : UInt8) (s : Bool) :
    XPkt.norm { p with data := p.data.set 1 x, sent := s } = p.norm := by
  simp [XPkt.norm, List.set_set]

theorem map_norm_set {Q : List XPkt} {k : Nat} (hk : k < Q.length) {p : XPkt} (h : p.norm = Q[k].norm) :
    (Q.set k p).map XPkt.norm = Q.map XPkt.norm := by
  apply List.ext_getElem?
  intro i
  simp only [List.getElem?_map, List.getElem?_set]
  by_cases e : k = i
  · subst e
    simp [hk, h]
  · rw [if_neg e]

/-- Sending keeps the queue and gives only packets that should be given. -/
theorem TxQ.push {M : Nat} {r : Rp} {Q : List XPkt} (h : TxQ r.tx M Q) (ll : Lower) :
    ∃ r' e out Q', r.push ll = some (r', e, out) ∧ TxQ r'.tx M Q' ∧ Q'.map XPkt.norm = Q.map XPkt.norm ∧
      r'.rx = r.rx ∧ r'.tx.max = r.tx.max ∧ r'.tx.maxSize = r.tx.maxSize ∧ r'.tx.acked = r.tx.acked ∧
      r'.tx.send = r.tx.send ∧ r'.state = r.state ∧ r'.maxPkt = r.maxPkt ∧ r'.maxSize = r.maxSize ∧
      r'.resend = r.resend ∧ (r'.sendResend = true → r.sendResend = true) ∧ (∀ b, out = some b → Emits r Q b) := by
  unfold Rp.push Rp.select
  by_cases c1 : r.sendInit = true
  · rw [if_pos c1]
    cases ll
    · exact ⟨r, _, _, Q, rfl, h, rfl, rfl, rfl, rfl, rfl, rfl, rfl, rfl, rfl, rfl, id, by simp⟩
    · exact ⟨r, _, _, Q, rfl, h, rfl, rfl, rfl, rfl, rfl, rfl, rfl, rfl, rfl, rfl, id, by simp⟩
    · exact ⟨r, _, _, Q, rfl, h, rfl, rfl, rfl, rfl, rfl, rfl, rfl, rfl, rfl, rfl, id, by simp⟩
    · exact ⟨_, _, _, Q, rfl, h, rfl, rfl, rfl, rfl, rfl, rfl, rfl, rfl, rfl, rfl, id, by
        intro b hb; cases hb; exact .init c1⟩
  · rw [if_neg c1]
    by_cases c2 : r.tx.waiting ≠ 0
    · rw [if_pos c2]
      obtain ⟨k, hk, e1, hs, _⟩ := h.firstToSend c2
      have hslot := h.slots k hk
      rw [e1]
      simp only [hslot]
      have hw1 : r.tx.waiting =
          (Q.set k { Q[k] with data := Q[k].data.set 1 (UInt8.ofNat r.rx.del) }).countP (fun p => !p.sent) := by
        have := countP_set_sent hk { Q[k] with data := Q[k].data.set 1 (UInt8.ofNat r.rx.del) }
        simp only [hs] at this
        rw [h.wait]
        simp_all
      have h2 := h.set hk { Q[k] with data := Q[k].data.set 1 (UInt8.ofNat r.rx.del) } r.tx.waiting hw1
      have hn : (Q.set k { Q[k] with data := Q[k].data.set 1 (UInt8.ofNat r.rx.del) }).map XPkt.norm =
          Q.map XPkt.norm := map_norm_set hk (by simp [XPkt.norm, List.set_set])
      cases ll
      · exact ⟨_, _, _, _, rfl, h2, hn, rfl, rfl, rfl, rfl, rfl, rfl, rfl, rfl, rfl, id, by simp⟩
      · exact ⟨_, _, _, _, rfl, h2, hn, rfl, rfl, rfl, rfl, rfl, rfl, rfl, rfl, rfl, id, by simp⟩
      · exact ⟨_, _, _, _, rfl, h2, hn, rfl, rfl, rfl, rfl, rfl, rfl, rfl, rfl, rfl, id, by simp⟩
      · have hl := (h.slot (j := k) (by have := h.qmax; omega)).2
        simp only [Rp.sent, List.getElem?_set_self hl]
        rw [if_neg c2]
        have hk2 : k < (Q.set k { Q[k] with data := Q[k].data.set 1 (UInt8.ofNat r.rx.del) }).length := by simpa using hk
        have h3 := h2.set hk2 { Q[k] with data := Q[k].data.set 1 (UInt8.ofNat r.rx.del), sent := true }
          (r.tx.waiting - 1) (by
            have := countP_set_sent hk2 { Q[k] with data := Q[k].data.set 1 (UInt8.ofNat r.rx.del), sent := true }
            rw [← hw1] at this
            simp only [List.getElem_set_self, hs] at this
            simp at this
            simp
            omega)
        simp only [List.set_set] at h3
        simp only [List.set_set]
        exact ⟨_, _, _, _, rfl, h3, map_norm_set hk (by simp [XPkt.norm, List.set_set]), rfl, rfl, rfl, rfl, rfl, rfl,
          rfl, rfl, rfl, id, by intro b hb; cases hb; exact .data k hk hs⟩
    · rw [if_neg c2]
      by_cases c3 : r.sendResend = true
      · rw [if_pos c3]
        cases ll
        · exact ⟨r, _, _, Q, rfl, h, rfl, rfl, rfl, rfl, rfl, rfl, rfl, rfl, rfl, rfl, id, by simp⟩
        · exact ⟨r, _, _, Q, rfl, h, rfl, rfl, rfl, rfl, rfl, rfl, rfl, rfl, rfl, rfl, id, by simp⟩
        · exact ⟨r, _, _, Q, rfl, h, rfl, rfl, rfl, rfl, rfl, rfl, rfl, rfl, rfl, rfl, id, by simp⟩
        · exact ⟨_, _, _, Q, rfl, h, rfl, rfl, rfl, rfl, rfl, rfl, rfl, rfl, rfl, rfl, by simp, by
            intro b hb; cases hb; exact .resend c3⟩
      · rw [if_neg c3]
        by_cases c4 : r.sendAck = true
        · rw [if_pos c4]
          cases ll
          · exact ⟨r, _, _, Q, rfl, h, rfl, rfl, rfl, rfl, rfl, rfl, rfl, rfl, rfl, rfl, id, by simp⟩
          · exact ⟨r, _, _, Q, rfl, h, rfl, rfl, rfl, rfl, rfl, rfl, rfl, rfl, rfl, rfl, id, by simp⟩
          · exact ⟨r, _, _, Q, rfl, h, rfl, rfl, rfl, rfl, rfl, rfl, rfl, rfl, rfl, rfl, id, by simp⟩
          · exact ⟨_, _, _, Q, rfl, h, rfl, rfl, rfl, rfl, rfl, rfl, rfl, rfl, rfl, rfl, id, by
              intro b hb; cases hb; exact .ack⟩
        · rw [if_neg c4]
          by_cases c5 : r.sendClose = true
          · rw [if_pos c5]
            cases ll
            · exact ⟨r, _, _, Q, rfl, h, rfl, rfl, rfl, rfl, rfl, rfl, rfl, rfl, rfl, rfl, id, by simp⟩
            · exact ⟨r, _, _, Q, rfl, h, rfl, rfl, rfl, rfl, rfl, rfl, rfl, rfl, rfl, rfl, id, by simp⟩
            · exact ⟨r, _, _, Q, rfl, h, rfl, rfl, rfl, rfl, rfl, rfl, rfl, rfl, rfl, rfl, id, by simp⟩
            · simp only [Rp.sent]
              by_cases c6 : r.state = .remClosed
              · rw [if_pos c6]
                exact ⟨_, _, _, Q, rfl, h, rfl, rfl, rfl, rfl, rfl, rfl, rfl, rfl, rfl, rfl, id, by
                  intro b hb; cases hb; exact .close⟩
              · rw [if_neg c6]
                exact ⟨_, _, _, Q, rfl, h, rfl, rfl, rfl, rfl, rfl, rfl, rfl, rfl, rfl, rfl, id, by
                  intro b hb; cases hb; exact .close⟩
          · rw [if_neg c5]
            exact ⟨r, _, _, Q, rfl, h, rfl, rfl, rfl, rfl, rfl, rfl, rfl, rfl, rfl, rfl, id, by simp⟩

end Gensio.Relpkt
