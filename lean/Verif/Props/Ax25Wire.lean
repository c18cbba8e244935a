import Verif.Model.Ax25Wire
import Verif.Props.Ax25Addr
import Verif.Props.Crc

/-!
# AX.25 frames as bytes

C106: what is sent is what is received.  C107: what is reported is in the packet.
-/
namespace Gensio.Ax25

open Gensio.Ax25Addr Gensio.Crc

/-! ### The control field -/

private theorem ext_facts : ∀ (n : Fin 128) (p : Bool),
    ((UInt8.ofNat (n.val <<< 1 ||| bit p) >>> 1) &&& 0x7f).toNat = n.val ∧ decide (UInt8.ofNat (n.val <<< 1 ||| bit p) &&& 1 = 1) = p := by decide +kernel

private theorem ext_ns : ∀ n : Fin 128,
    ¬ (UInt8.ofNat (n.val <<< 1) &&& 3 = 3) ∧ UInt8.ofNat (n.val <<< 1) &&& 1 = 0 ∧ ((UInt8.ofNat (n.val <<< 1) >>> 1) &&& 0x7f).toNat = n.val := by decide +kernel

private theorem norm_info : ∀ (n s : Fin 8) (p : Bool),
    let b := UInt8.ofNat (n.val <<< 5 ||| bit p <<< 4 ||| s.val <<< 1)
    ¬ (b &&& 3 = 3) ∧ b &&& 1 = 0 ∧ ((b >>> 5) &&& 7).toNat = n.val ∧ ((b >>> 1) &&& 7).toNat = s.val ∧ decide ((b >>> 4) &&& 1 = 1) = p := by decide +kernel

private theorem norm_sup (k : Sup) : ∀ (n : Fin 8) (p : Bool),
    let b := UInt8.ofNat (n.val <<< 5 ||| bit p <<< 4 ||| supCode k)
    ¬ (b &&& 3 = 3) ∧ ¬ (b &&& 1 = 0) ∧ ((b >>> 5) &&& 7).toNat = n.val ∧ decide ((b >>> 4) &&& 1 = 1) = p ∧ supOf (b &&& 0xf) = some k := by
  cases k <;> decide +kernel

private theorem ext_sup (k : Sup) :
    ¬ (UInt8.ofNat (supCode k) &&& 3 = 3) ∧ ¬ (UInt8.ofNat (supCode k) &&& 1 = 0) ∧ supOf (UInt8.ofNat (supCode k)) = some k := by
  cases k <;> decide +kernel

private theorem unn_facts (k : Unn) : ∀ p : Bool,
    let b := UInt8.ofNat (bit p <<< 4 ||| unnCode k)
    b &&& 3 = 3 ∧ ¬ (b &&& 0xef = uiCode) ∧ unnOf (b &&& 0xef) = some k ∧ decide ((b >>> 4) &&& 1 = 1) = p := by
  cases k <;> decide +kernel

/-- The modulus of a mode. -/
def modulus (ext : Bool) : Nat := if ext then 128 else 8

/-- The control field of a frame is read back. -/
theorem readCtl_control {ext : Bool} {f : Frame} (h : frameIn (modulus ext) f = true) {ch : Option Bool}
    (hc : ch = some ext ∨ ∃ k pf c body, f = .unn k pf c body) : readCtl ch f.isCmd (control ext f) = .frame f := by
  cases f with
  | unn k pf c body =>
    obtain ⟨h1, h2, h3, h4⟩ := unn_facts k pf
    simp only [control, readCtl, Frame.isCmd]
    rw [if_pos h1, if_neg h2, h3]
    dsimp only
    rw [h4]
  | info nr ns p c body =>
    have hc : ch = some ext := by simpa using hc
    subst hc
    simp only [frameIn, Bool.and_eq_true, decide_eq_true_eq] at h
    cases ext with
    | true =>
      obtain ⟨h1, h2⟩ := ext_facts ⟨nr, h.1⟩ p
      obtain ⟨h3, h4, h5⟩ := ext_ns ⟨ns, h.2⟩
      simp only [control, readCtl, Frame.isCmd, if_true]
      rw [if_neg h3]
      dsimp only at h1 h2 h4 h5 ⊢
      rw [if_pos h4, h1, h2, h5]
    | false =>
      obtain ⟨h1, h2, h3, h4, h5⟩ := norm_info ⟨nr, h.1⟩ ⟨ns, h.2⟩ p
      simp only [control, readCtl, Frame.isCmd, Bool.false_eq_true, if_false]
      dsimp only at h1 h2 h3 h4 h5 ⊢
      rw [if_neg h1, if_pos h2, h3, h4, h5]
  | sup k nr p c =>
    have hc : ch = some ext := by simpa using hc
    subst hc
    simp only [frameIn, decide_eq_true_eq] at h
    cases ext with
    | true =>
      obtain ⟨h1, h2⟩ := ext_facts ⟨nr, h⟩ p
      obtain ⟨h3, h4, h5⟩ := ext_sup k
      simp only [control, readCtl, Frame.isCmd, if_true]
      rw [if_neg h3]
      dsimp only at h1 h2 ⊢
      rw [if_neg h4, h1, h2, h5]
    | false =>
      obtain ⟨h1, h2, h3, h4, h5⟩ := norm_sup k ⟨nr, h⟩ p
      simp only [control, readCtl, Frame.isCmd, Bool.false_eq_true, if_false]
      dsimp only at h1 h2 h3 h4 h5 ⊢
      rw [if_neg h1, if_neg h2, h3, h4, h5]

/-! ### The addresses -/

/-- The address of a frame: the command bit is the `ch` of the destination, and not that of the source. -/
def crAddr (a : Addr) (isCmd : Bool) : Addr := { a with dest := { a.dest with ch := isCmd }, src := { a.src with ch := !isCmd } }

private theorem lastByte_ch : ∀ (n : Fin 16) (ch e : Bool),
    let b := UInt8.ofNat (n.val * 2) ||| (if ch then 128 else 0) ||| (if e then 1 else 0)
    b ||| 0x80 = UInt8.ofNat (n.val * 2) ||| 128 ||| (if e then 1 else 0) ∧
    b &&& 0x7f = UInt8.ofNat (n.val * 2) ||| 0 ||| (if e then 1 else 0) := by decide +kernel

private theorem lastByte_set {a : Sub} {call : List UInt8} (h : WireOk a call) (e : Bool) :
    lastByte a e ||| 0x80 = lastByte { a with ch := true } e ∧ lastByte a e &&& 0x7f = lastByte { a with ch := false } e := by
  have := lastByte_ch ⟨a.ssid, h.ssid⟩ a.ch e
  simpa [lastByte] using this

theorem wire_ch {a : Sub} {call : List UInt8} (h : WireOk a call) (b : Bool) : WireOk { a with ch := b } call := ⟨h.len, h.chars, h.addr, h.ssid⟩

theorem crAddr_wire {a : Addr} (h : AddrWire a) (b : Bool) : AddrWire (crAddr a b) :=
  ⟨let ⟨c, hc⟩ := h.dest; ⟨c, wire_ch hc b⟩, let ⟨c, hc⟩ := h.src; ⟨c, wire_ch hc !b⟩, h.extra, h.nextra⟩

/-- Where the two bytes with the command bits are. -/
theorem encodeAddr_form {a : Addr} (h : AddrWire a) :
    ∃ cd cs e rest, WireOk a.dest cd ∧ WireOk a.src cs ∧ ∀ b1 b2, encodeAddr { a with dest := { a.dest with ch := b1 }, src := { a.src with ch := b2 } } =
      some (callBytes cd ++ lastByte { a.dest with ch := b1 } false :: (callBytes cs ++ lastByte { a.src with ch := b2 } e :: rest)) := by
  obtain ⟨cd, hd⟩ := h.dest
  obtain ⟨cs, hs⟩ := h.src
  obtain ⟨xs, hx1, hx2⟩ := withCalls a.extra h.extra
  refine ⟨cd, cs, xs.isEmpty, wires xs, hd, hs, fun b1 b2 => ?_⟩
  have hall : ∀ x ∈ ({ a.dest with ch := b1 }, cd) :: ({ a.src with ch := b2 }, cs) :: xs, WireOk x.1 x.2 := by
    intro x hx
    simp only [List.mem_cons] at hx
    rcases hx with hx | hx | hx
    · subst hx; exact wire_ch hd b1
    · subst hx; exact wire_ch hs b2
    · exact hx2 x hx
  have := markEnd_wires (({ a.dest with ch := b1 }, cd) :: ({ a.src with ch := b2 }, cs) :: xs) (by simp) hall []
  rw [encodeAddr, if_pos h.nextra]
  simp only [List.nil_append, List.flatMap_cons] at this
  rw [← hx1, List.append_assoc, List.flatMap_map, this]
  cases xs with
  | nil => simp [wires]
  | cons x t => simp [wires]

/-- Setting the bits in the encoded address encodes the address of the frame. -/
theorem setCr_encode {a : Addr} (h : AddrWire a) {w : List UInt8} (hw : encodeAddr a = some w) (isCmd : Bool) :
    encodeAddr (crAddr a isCmd) = some (setCr w isCmd) := by
  obtain ⟨cd, cs, e, rest, hd, hs, hb⟩ := encodeAddr_form h
  have h0 := hb a.dest.ch a.src.ch
  have : ({ a with dest := { a.dest with ch := a.dest.ch }, src := { a.src with ch := a.src.ch } } : Addr) = a := rfl
  rw [this, hw] at h0
  cases h0
  rw [crAddr, hb]
  congr 1
  obtain ⟨d1, d2⟩ := lastByte_set hd false
  obtain ⟨s1, s2⟩ := lastByte_set hs e
  have l1 := callBytes_length cd hd.len
  have l2 := callBytes_length cs hs.len
  generalize callBytes cd = A at *
  generalize callBytes cs = B at *
  have g6 : ∀ x : UInt8, ∀ R : List UInt8, (A ++ x :: R).getD 6 0 = x := by
    intro x R
    rw [List.getD_eq_getElem?_getD, List.getElem?_append_right (by omega), l1]
    rfl
  have s6 : ∀ x y : UInt8, ∀ R : List UInt8, (A ++ x :: R).set 6 y = A ++ y :: R := by
    intro x y R
    rw [List.set_append_right _ _ (by omega), l1]
    rfl
  have g13 : ∀ x y : UInt8, ∀ R : List UInt8, (A ++ x :: (B ++ y :: R)).getD 13 0 = y := by
    intro x y R
    rw [List.getD_eq_getElem?_getD, List.getElem?_append_right (by omega), l1]
    show (B ++ y :: R)[6]?.getD 0 = y
    rw [List.getElem?_append_right (by omega), l2]
    rfl
  have s13 : ∀ x y z : UInt8, ∀ R : List UInt8, (A ++ x :: (B ++ y :: R)).set 13 z = A ++ x :: (B ++ z :: R) := by
    intro x y z R
    rw [List.set_append_right _ _ (by omega), l1]
    show A ++ x :: (B ++ y :: R).set 6 z = _
    rw [List.set_append_right _ _ (by omega), l2]
    rfl
  cases isCmd with
  | true => simp only [setCr, if_true, g6, g13, s6, s13]; rw [d1, s2]; rfl
  | false => simp only [setCr, Bool.false_eq_true, if_false, g6, g13, s6, s13]; rw [d2, s1]; rfl

/-! ### The CRC -/

/-- The check is that of an HDLC frame. -/
theorem checkCrc_hdlc {buf : List UInt8} (h3 : 3 ≤ buf.length) :
    checkCrc true buf = if hdlcCheck buf then some (buf.take (buf.length - 2)) else none := by
  have g : ∀ i, i < buf.length → buf[i]! = buf.getD i 0 := by
    intro i hi
    rw [getElem!_pos buf i hi, List.getD_eq_getElem?_getD, List.getElem?_eq_getElem hi, Option.getD_some]
  unfold checkCrc hdlcCheck
  rw [if_pos rfl, if_neg (by omega), g _ (by omega), g _ (by omega)]
  simp only [Bool.and_eq_true, decide_eq_true_eq, beq_iff_eq]
  split
  · rename_i h
    rw [if_pos ⟨h3, h.symm⟩]
  · rename_i h
    rw [if_neg (fun hc => h hc.2.symm)]

theorem checkCrc_frame {p : List UInt8} (hp : p ≠ []) : checkCrc true (p ++ crcBytes p) = some p := by
  have hl : (p ++ crcBytes p).length = p.length + 2 := by simp [crcBytes]
  have : 0 < p.length := by cases p <;> simp at hp ⊢
  have h := C12_hdlc_accepts p hp
  rw [checkCrc_hdlc (by omega)]
  rw [show p ++ crcBytes p = hdlcFrame p from rfl, h, if_pos rfl]
  rw [show hdlcFrame p = p ++ crcBytes p from rfl, hl]
  simp

/-! ### C106 -/

theorem control_ne {ext : Bool} {f : Frame} : control ext f ≠ [] := by
  cases f <;> cases ext <;> simp [control]

/-- C106: a frame sent with any address, by a station in either mode, with or without a CRC, is received with the same addresses, as the same
frame: kind, sequence numbers, P/F bit, command bit and content.  The sequence numbers are below the modulus (which C102 proves of
`vr` and of the packets queued); the digipeaters, if any, have repeated it; and for an I or S frame the receiver has a channel in the same mode. -/
theorem C106_frame_roundtrip {a : Addr} (h : AddrWire a) (hr : ∀ e ∈ a.extra, e.ch = true) {w : List UInt8} (hw : encodeAddr a = some w)
    (crc ext : Bool) {f : Frame} (hf : frameIn (modulus ext) f = true) {port : Nat} (hp : port < 256) {chan : Addr → Option Bool}
    (hc : (∀ b, chan b = some ext) ∨ ∃ k pf c body, f = .unn k pf c body) (hl : (control ext f).length < 2 ^ 63) :
    ∃ r, rxBytes crc port chan (txBytes w crc ext f) =
      some (some (⟨port, rd { a.dest with ch := f.isCmd }, rd { a.src with ch := !f.isCmd }, a.extra.map rd⟩, r, .frame f)) := by
  have hcw := crAddr_wire h f.isCmd
  obtain ⟨w', e1, e2, e3, e4⟩ := C46_roundtrip_partial (crAddr a f.isCmd) hcw [] (control ext f) port hp (by simpa using hl)
  rw [setCr_encode h hw] at e1
  cases e1
  simp only [List.nil_append, List.length_nil, Nat.zero_add] at e4
  have hlen : 14 ≤ (setCr w f.isCmd).length := by rw [e3]; omega
  have hchk : checkCrc crc (txBytes w crc ext f) = some (setCr w f.isCmd ++ control ext f) := by
    cases crc with
    | false => rfl
    | true =>
      unfold txBytes
      simp only [if_true]
      refine checkCrc_frame (fun hn => ?_)
      have := congrArg List.length hn
      rw [List.length_append, List.length_nil] at this
      omega
  unfold rxBytes
  rw [hchk]
  simp only
  rw [if_neg (by rw [List.length_append]; omega), e4]
  simp only
  rw [if_neg]
  · rw [List.drop_left]
    have : ∃ r, readReport (control ext f) = some r := by
      cases hcf : control ext f with
      | nil => exact absurd hcf control_ne
      | cons b bs => unfold readReport; simp only; split <;> exact ⟨_, rfl⟩
    obtain ⟨r, hrr⟩ := this
    rw [hrr]
    refine ⟨r, ?_⟩
    have hk := readCtl_control (ch := chan ⟨port, rd (crAddr a f.isCmd).dest, rd (crAddr a f.isCmd).src, (crAddr a f.isCmd).extra.map rd⟩) hf
      (hc.imp (fun h => h _) id)
    simp only
    rw [show (rd (crAddr a f.isCmd).dest).ch = f.isCmd from rfl, hk]
    rfl
  · simp only [List.any_eq_true, List.mem_map, not_exists, not_and, crAddr]
    rintro x ⟨e, he, rfl⟩
    simp [rd, hr e he]

/-- C106: whatever bytes arrive, reading the addresses and the control field of a packet stays in the packet. -/
theorem C106_read_inside (crc : Bool) (port : Nat) (chan : Addr → Option Bool) {buf : List UInt8} (hl : buf.length < 2 ^ 64) :
    rxBytes crc port chan buf ≠ none := by
  unfold rxBytes
  cases hc : checkCrc crc buf with
  | none => simp
  | some p =>
    have hp : p.length ≤ buf.length := by
      unfold checkCrc at hc
      split at hc
      · split at hc
        · cases hc
        · simp only at hc
          split at hc
          · cases hc; simp
          · cases hc
      · cases hc; omega
    simp only
    split
    · simp
    · obtain ⟨r, e, _⟩ := C46_decode_safe p 0 port (Nat.zero_le _) (by omega)
      rw [e]
      cases r with
      | none => simp
      | some x =>
        obtain ⟨a, pos⟩ := x
        simp only
        split
        · simp
        · split <;> simp

/-- C106: with the CRC on, a packet that was changed within 16 consecutive bits on the line (bits of each byte lowest first) is dropped. -/
theorem C106_corrupted_dropped {w : List UInt8} (ext : Bool) (f : Frame) (port : Nat) (chan : Addr → Option Bool) {buf : List UInt8} {e : List Bool} (he : IsBurst e)
    (hl : e.length = (msgLsb (txBytes w true ext f)).length) (hb : msgLsb buf = xorL (msgLsb (txBytes w true ext f)) e) :
    rxBytes true port chan buf = some none := by
  have hp : setCr w f.isCmd ++ control ext f ≠ [] := by simp [control_ne]
  have htx : txBytes w true ext f = hdlcFrame (setCr w f.isCmd ++ control ext f) := rfl
  rw [htx] at hl hb
  have := C12_hdlc _ buf hp e he hl hb
  unfold rxBytes
  by_cases h3 : 3 ≤ buf.length
  · rw [checkCrc_hdlc h3, this]
    rfl
  · cases hc : checkCrc true buf with
    | none => rfl
    | some p =>
      have : p.length < 14 := by
        unfold checkCrc at hc
        rw [if_pos rfl] at hc
        split at hc
        · cases hc
        · simp only at hc
          split at hc
          · cases hc; simp; omega
          · cases hc
      simp only
      rw [if_pos this]

/-- An I frame with digipeated address and CRC as on the line, and as it is received. -/
example : encodeAddr exA = some [130, 132, 98, 134, 136, 138, 0, 156, 96, 134, 130, 152, 152, 30, 174, 146, 136, 138, 100, 64, 131] ∧
    txBytes [130, 132, 98, 134, 136, 138, 0, 156, 96, 134, 130, 152, 152, 31] false false (.info 3 5 true true [240, 65]) =
      [130, 132, 98, 134, 136, 138, 128, 156, 96, 134, 130, 152, 152, 31, 0x7a, 240, 65] := by decide +kernel

example : (rxBytes true 0 (fun _ => some true) (txBytes [130, 132, 98, 134, 136, 138, 0, 156, 96, 134, 130, 152, 152, 31] true true (.info 100 77 false true [240, 65]))).map
    (·.map fun x => x.2) = some (some (⟨some 154, [200, 240, 65], 3⟩, .frame (.info 100 77 false true [240, 65]))) := by decide +kernel

/-! ### C107 -/

/-- The packet of a UI frame: an address, the control byte, and what follows. -/
def uiPacket (w : List UInt8) (body : List UInt8) : List UInt8 := w ++ [uiCode] ++ body

/-- C107 violated: for every address, a UI frame without a PID is reported with a byte from after the packet as its PID, and with
4294967295 bytes of data, of which the packet has none. -/
theorem C107_empty_ui_violated {a : Addr} (h : AddrWire a) (hr : ∀ e ∈ a.extra, e.ch = true) {w : List UInt8} (hw : encodeAddr a = some w)
    (chan : Addr → Option Bool) : ∃ b, rxBytes false 0 chan (uiPacket w []) = some (some (b, ⟨none, [], 4294967295⟩, .ui)) := by
  obtain ⟨w', e1, e2, e3, e4⟩ := C46_roundtrip_partial a h [] [uiCode] 0 (by decide) (by simp)
  rw [hw] at e1; cases e1
  simp only [List.nil_append, List.length_nil, Nat.zero_add] at e4
  unfold rxBytes
  rw [show checkCrc false (uiPacket w []) = some (w ++ [uiCode]) from by simp [checkCrc, uiPacket]]
  simp only
  rw [if_neg (by rw [List.length_append, e3]; omega), e4]
  simp only
  rw [if_neg]
  · have hrep : readReport [uiCode] = some ⟨none, [], 4294967295⟩ := by
      simp only [readReport]
      rw [if_pos (by decide)]
      simp only [report, List.head?_nil, List.tail_nil, List.length_nil]
    have hget : ∀ x c, readCtl x c [uiCode] = .ui := fun x c => by
      simp only [readCtl]
      rw [if_pos (by decide), if_pos (by decide)]
    rw [List.drop_left, hrep]
    simp only [hget]
    exact ⟨_, rfl⟩
  · simp only [List.any_eq_true, List.mem_map, not_exists, not_and]
    rintro x ⟨e, he, rfl⟩
    simp [rd, hr e he]

/-- C107 violated: every unnumbered frame without content, such as the SABM that opens a connection, makes the receiver read a byte after
the packet. -/
theorem C107_unnumbered_overread_violated (k : Unn) (pf c : Bool) (ext : Bool) :
    (readReport (control ext (.unn k pf c []))).map Report.pid = some none := by
  obtain ⟨h1, _⟩ := unn_facts k pf
  simp only [control, readReport]
  rw [if_pos h1]
  simp only [report, Option.map_some, List.head?_nil]

/-- C107, partial: a UI frame with a PID is reported with its PID and its data.  Missing: one without a PID. -/
theorem C107_ui_partial {a : Addr} (h : AddrWire a) (hr : ∀ e ∈ a.extra, e.ch = true) {w : List UInt8} (hw : encodeAddr a = some w)
    (chan : Addr → Option Bool) (pid : UInt8) {data : List UInt8} (hl : data.length < 4294967295) :
    ∃ b, rxBytes false 0 chan (uiPacket w (pid :: data)) = some (some (b, ⟨some pid, data, data.length⟩, .ui)) := by
  obtain ⟨w', e1, e2, e3, e4⟩ := C46_roundtrip_partial a h [] (uiCode :: pid :: data) 0 (by decide) (by simp; omega)
  rw [hw] at e1; cases e1
  simp only [List.nil_append, List.length_nil, Nat.zero_add] at e4
  unfold rxBytes
  rw [show checkCrc false (uiPacket w (pid :: data)) = some (w ++ uiCode :: pid :: data) from by simp [checkCrc, uiPacket]]
  simp only
  rw [if_neg (by rw [List.length_append, e3]; omega), e4]
  simp only
  rw [if_neg]
  · rw [List.drop_left]
    have : readReport (uiCode :: pid :: data) = some ⟨some pid, data, data.length⟩ := by
      simp only [readReport]
      rw [if_pos (by decide)]
      simp only [report, List.head?_cons, List.tail_cons, List.length_cons, Option.some.injEq, Report.mk.injEq, true_and]
      omega
    have hget : ∀ x c, readCtl x c (uiCode :: pid :: data) = .ui := fun x c => by
      simp only [readCtl]
      rw [if_pos (by decide), if_pos (by decide)]
    rw [this]
    simp only [hget]
    exact ⟨_, rfl⟩
  · simp only [List.any_eq_true, List.mem_map, not_exists, not_and]
    rintro x ⟨e, he, rfl⟩
    simp [rd, hr e he]

/-- A UI frame with a PID, as it is reported. -/
example : (rxBytes false 0 (fun _ => none) (uiPacket [130, 132, 98, 134, 136, 138, 128, 156, 96, 134, 130, 152, 152, 31] [240, 72, 105])).map
    (·.map fun x => x.2) = some (some (⟨some 240, [72, 105], 2⟩, .ui)) := by decide +kernel

end Gensio.Ax25
