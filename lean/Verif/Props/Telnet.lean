import Verif.Lemmas.Telnet
/-!
# Telnet layer: C13, C14, C15, C51
-/
namespace Gensio.Telnet

/-! ### Specification of a telnet byte stream, independent of the code (RFC 854/855) -/

/-- The things a telnet stream consists of. -/
inductive Item where
  /-- A byte of user data. -/
  | data (b : UInt8)
  /-- IAC `c` with `c` below SB. -/
  | simple (c : UInt8)
  /-- IAC WILL/WONT/DO/DONT `o`. -/
  | nego (v o : UInt8)
  /-- IAC SB `o` payload IAC SE. -/
  | sub (o : UInt8) (p : List UInt8)
deriving DecidableEq, Repr

/-- Every 255 doubled. -/
def escape (d : List UInt8) : List UInt8 := d.flatMap fun b => if b = 255 then [255, 255] else [b]

def Item.ok : Item → Prop
  | .data _ => True
  | .simple c => c < 250
  | .nego v _ => 250 < v ∧ v < 255
  | .sub o _ => o ≠ 255

def Item.wire : Item → List UInt8
  | .data b => escape [b]
  | .simple c => [255, c]
  | .nego v o => [255, v, o]
  | .sub o p => [255, 250, o] ++ escape p ++ [255, 240]

def Item.dataOf : Item → List UInt8
  | .data b => [b]
  | _ => []

/-- The command the handler shall see: IAC, the command and its bytes, doubled 255 undone,
cut to the 31 bytes the command buffer can hold. -/
def Item.cmdOf : Item → List (List UInt8)
  | .data _ => []
  | .simple c => [[255, c]]
  | .nego v o => [[255, v, o]]
  | .sub o p => [([255, 250, o] ++ p).take 31]

def wire (its : List Item) : List UInt8 := its.flatMap Item.wire
def dataOf (its : List Item) : List UInt8 := its.flatMap Item.dataOf
def cmdsOf (its : List Item) : List (List UInt8) := its.flatMap Item.cmdOf

/-! ### The receive machine decodes such streams -/

/-- Between items. -/
def Idle (r : Rx) : Prop := r.cmd.length = 32 ∧ r.pos = 0

/-- Inside a command of which the bytes `c` were seen. -/
def Within (r : Rx) (c : List UInt8) : Prop :=
  r.cmd.length = 32 ∧ r.pos = min c.length 32 ∧ r.cmd.take (min c.length 31) = c.take 31

theorem idle_safe {r : Rx} (h : Idle r) : Safe r := ⟨h.1, by rw [h.2]; simp⟩
theorem init_idle : Idle Rx.init := by unfold Idle Rx.init; simp

theorem take_push {m c : List UInt8} (b : UInt8) (hl : m.length = 32) (hc : c.length ≤ 30)
    (ht : m.take c.length = c) :
    (m.take c.length ++ [b] ++ m.drop (c.length + 1)).take (c.length + 1) = c ++ [b] := by
  rw [ht, List.take_append_of_le_length (by simp)]
  simp [List.take_of_length_le]

/-- Storing a byte of a suboption. -/
theorem within_push {r : Rx} {c : List UInt8} (b : UInt8) (h : Within r c) :
    ∃ r', (if r.pos > maxCmd then { r with pos := maxCmd } else r).push b = some r' ∧
      Within r' (c ++ [b]) ∧ r'.subIac = r.subIac := by
  obtain ⟨h1, h2, h3⟩ := h
  by_cases hl : c.length ≤ 30
  · have e : min c.length 31 = c.length := by omega
    have e2 : min c.length 32 = c.length := by omega
    rw [e, List.take_of_length_le (l := c) (by omega)] at h3
    rw [e2] at h2
    rw [if_neg (by simp only [maxCmd]; omega), push_some b h1 (by omega)]
    refine ⟨_, rfl, ⟨?_, ?_, ?_⟩, rfl⟩
    · simp; omega
    · simp only [List.length_append, List.length_singleton]; omega
    · simp only [List.length_append, List.length_singleton]
      rw [show min (c.length + 1) 31 = c.length + 1 by omega, h2,
        take_push b h1 hl h3, List.take_of_length_le (by simp; omega)]
  · have e : min c.length 31 = 31 := by omega
    rw [e] at h3
    have hp : (if r.pos > maxCmd then { r with pos := maxCmd } else r) = { r with pos := 31 } := by
      split
      · rfl
      · have : r.pos = 31 := by simp only [maxCmd] at *; omega
        rw [← this]
    rw [hp, push_some b (by exact h1) (by simp)]
    refine ⟨_, rfl, ⟨?_, ?_, ?_⟩, rfl⟩
    · simp; omega
    · simp only [List.length_append, List.length_singleton]; omega
    · simp only [List.length_append, List.length_singleton]
      rw [show min (c.length + 1) 31 = 31 by omega, List.append_assoc,
        List.take_append_of_le_length (by simp; omega), List.take_take, Nat.min_self, h3,
        List.take_append_of_le_length (by omega)]

/-- A payload byte, doubled if it is 255. -/
theorem within_payload {r : Rx} {c : List UInt8} (b : UInt8) (h : Within r c) (h3 : 3 ≤ c.length)
    (hs : r.subIac = false) :
    ∃ r', rxAll r (escape [b]) = some (r', [], []) ∧ Within r' (c ++ [b]) ∧ r'.subIac = false := by
  obtain ⟨r', e, hw, hr⟩ := within_push b h
  have p3 : 3 ≤ r.pos := by have := h.2.1; omega
  have e1 : rxByte r b = some { rx := if b = IAC then { r' with subIac := true } else r' } := by
    unfold rxByte
    rw [if_pos (by omega), if_neg (by omega), if_neg (by omega), if_neg (by omega), if_neg (by simp [hs])]
    simp only [e, Option.bind_eq_bind, Option.bind_some]
  by_cases hb : b = 255
  · have p3' : 3 ≤ r'.pos := by have := hw.2.1; simp at this; omega
    have e2 : rxByte { r' with subIac := true } 255 = some { rx := { r' with subIac := false } } := by
      unfold rxByte
      rw [if_pos (by simp only; omega), if_neg (by simp only; omega), if_neg (by simp only; omega),
        if_neg (by simp only; omega), if_pos rfl, if_neg (by decide), if_pos rfl]
    refine ⟨{ r' with subIac := false }, ?_, hw, rfl⟩
    subst hb
    simp [escape, rxAll, e1, e2, IAC]
  · refine ⟨r', ?_, hw, by rw [hr, hs]⟩
    simp [escape, rxAll, e1, hb, IAC]

theorem escape_append (a b : List UInt8) : escape (a ++ b) = escape a ++ escape b := by
  simp [escape]
theorem escape_cons (a : UInt8) (b : List UInt8) : escape (a :: b) = escape [a] ++ escape b := by
  simp [escape]

theorem within_payloads (p : List UInt8) : ∀ (r : Rx) (c : List UInt8), Within r c → 3 ≤ c.length →
    r.subIac = false →
    ∃ r', rxAll r (escape p) = some (r', [], []) ∧ Within r' (c ++ p) ∧ r'.subIac = false := by
  induction p with
  | nil => intro r c h _ hs; exact ⟨r, rfl, by simpa using h, hs⟩
  | cons b p ih =>
    intro r c h h3 hs
    obtain ⟨r1, e1, w1, s1⟩ := within_payload b h h3 hs
    obtain ⟨r2, e2, w2, s2⟩ := ih r1 (c ++ [b]) w1 (by simp; omega) s1
    refine ⟨r2, ?_, by simpa using w2, s2⟩
    rw [escape_cons, rxAll_append, e1]
    simp [e2]

/-- The IAC SE ending a suboption. -/
theorem within_end {r : Rx} {c : List UInt8} (h : Within r c) (h3 : 3 ≤ c.length)
    (hs : r.subIac = false) :
    ∃ r', rxAll r [255, 240] = some (r', [], [c.take 31]) ∧ Idle r' := by
  obtain ⟨r', e, hw, hr⟩ := within_push 255 h
  have p3 : 3 ≤ r.pos := by have := h.2.1; omega
  have e1 : rxByte r 255 = some { rx := { r' with subIac := true } } := by
    unfold rxByte
    rw [if_pos (by omega), if_neg (by omega), if_neg (by omega), if_neg (by omega), if_neg (by simp [hs])]
    simp only [e, Option.bind_eq_bind, Option.bind_some, if_true]
  obtain ⟨w1, w2, w3⟩ := hw
  simp only [List.length_append, List.length_singleton] at w2 w3
  have hsf : Safe { r' with pos := r'.pos - 1, subIac := true } := ⟨w1, by simp only; omega⟩
  have e2 : rxByte { r' with subIac := true } 240 =
      some { rx := { r' with pos := 0, subIac := false }, cmd := some (r'.cmd.take (r'.pos - 1)) } := by
    unfold rxByte
    rw [if_pos (by simp only; omega), if_neg (by simp only; omega), if_neg (by simp only; omega),
      if_neg (by simp only; omega), if_pos rfl, if_pos rfl]
    simp only [finish_some hsf, Option.bind_eq_bind, Option.bind_some]
  refine ⟨{ r' with pos := 0, subIac := false }, ?_, w1, rfl⟩
  have : r'.cmd.take (r'.pos - 1) = c.take 31 := by
    have hp : r'.pos - 1 = min c.length 31 := by omega
    rw [hp]
    have := congrArg (List.take (min c.length 31)) w3
    rw [List.take_take, List.take_take, Nat.min_eq_left (by omega)] at this
    rw [this, Nat.min_eq_left (by omega), List.take_append_of_le_length (by omega)]
    by_cases hc : c.length ≤ 31
    · rw [Nat.min_eq_left hc, List.take_of_length_le (by omega), List.take_of_length_le hc]
    · rw [Nat.min_eq_right (by omega)]
  simp [rxAll, e1, e2, this]

theorem idle_iac {r : Rx} (h : Idle r) :
    ∃ r', rxByte r 255 = some { rx := r' } ∧ Within r' [255] ∧ r'.subIac = false := by
  refine ⟨{ cmd := r.cmd.take r.pos ++ [255] ++ r.cmd.drop (r.pos + 1), pos := r.pos + 1, subIac := false },
    ?_, ?_⟩
  · unfold rxByte
    rw [if_neg (by rw [h.2]; simp), if_pos rfl, push_some IAC h.1 (by rw [h.2]; simp)]
    rfl
  · refine ⟨⟨?_, ?_, ?_⟩, rfl⟩ <;> simp [h.2, h.1]

theorem within1 {r : Rx} {b : UInt8} (h : Within r [255]) (hb : b ≠ 255) :
    ∃ r', Within r' [255, b] ∧ r'.subIac = r.subIac ∧
      rxByte r b = (if b < SB then r'.finish else some { rx := r' }) := by
  obtain ⟨r', e, hw, hr⟩ := within_push b h
  have hp : r.pos = 1 := by have := h.2.1; simpa using this
  rw [if_neg (by rw [hp]; simp [maxCmd])] at e
  refine ⟨r', hw, hr, ?_⟩
  unfold rxByte
  rw [if_pos (by omega), if_neg (by simp [hb, IAC]), if_pos hp, e]
  rfl

theorem within2 {r : Rx} {v b : UInt8} (h : Within r [255, v]) (hv : v ≠ 240) :
    ∃ r', Within r' [255, v, b] ∧ r'.subIac = r.subIac ∧
      rxByte r b = (if v ≠ SB then r'.finish else some { rx := r' }) := by
  obtain ⟨r', e, hw, hr⟩ := within_push b h
  have hp : r.pos = 2 := by have := h.2.1; simpa using this
  rw [if_neg (by rw [hp]; simp [maxCmd])] at e
  refine ⟨r', hw, hr, ?_⟩
  have hread : r'.cmd.read 1 1 = some [v] := by
    have h3 := hw.2.2
    have hl := hw.1
    rw [Mem.read, if_pos (by omega)]
    simp only [List.cons_append, List.nil_append, List.length_cons, List.length_nil] at h3
    have : (r'.cmd.drop 1).take 1 = ((r'.cmd.take 3).drop 1).take 1 := by
      rw [List.drop_take, List.take_take]; rfl
    rw [this]
    have h3' : r'.cmd.take 3 = [255, v, b] := by simpa using h3
    rw [h3']; rfl
  unfold rxByte
  rw [if_pos (by omega), if_neg (by omega), if_neg (by omega), if_pos hp, e]
  simp only [Option.bind_eq_bind, Option.bind_some, hread]
  rw [if_neg (by simp [hv, SE])]
  simp

theorem within_finish {r : Rx} {c : List UInt8} (h : Within r c) (hc : c.length ≤ 31) :
    r.finish = some { rx := { r with pos := 0 }, cmd := some c } := by
  have hs : Safe r := ⟨h.1, by have := h.2.1; omega⟩
  rw [finish_some hs]
  have h3 := h.2.2
  have h2 := h.2.1
  rw [Nat.min_eq_left (by omega)] at h2
  rw [Nat.min_eq_left hc, List.take_of_length_le hc] at h3
  rw [h2, h3]

theorem rxAll_item (it : Item) (hok : it.ok) (r : Rx) (h : Idle r) :
    ∃ r', rxAll r it.wire = some (r', it.dataOf, it.cmdOf) ∧ Idle r' := by
  obtain ⟨r1, e1, w1, s1⟩ := idle_iac h
  cases it with
  | data b =>
    by_cases hb : b = 255
    · have p1 : r1.pos = 1 := by have := w1.2.1; simpa using this
      refine ⟨{ r1 with pos := 0 }, ?_, w1.1, rfl⟩
      have : rxByte r1 255 = some { rx := { r1 with pos := 0 }, data := [255] } := by
        unfold rxByte; rw [if_pos (by omega), if_pos ⟨p1, rfl⟩]
      subst hb
      simp [Item.wire, escape, rxAll, e1, this, Item.dataOf, Item.cmdOf]
    · refine ⟨r, ?_, h⟩
      have : rxByte r b = some { rx := r, data := [b] } := by
        unfold rxByte; rw [if_neg (by rw [h.2]; simp), if_neg (by simp [hb, IAC])]
      simp [Item.wire, escape, rxAll, hb, this, Item.dataOf, Item.cmdOf]
  | simple c =>
    have hc : c < 250 := hok
    obtain ⟨r2, w2, s2, e2⟩ := within1 (b := c) w1 (by rintro rfl; exact absurd hc (by decide))
    rw [if_pos hc, within_finish w2 (by simp)] at e2
    exact ⟨{ r2 with pos := 0 }, by simp only [Item.wire, rxAll, e1, e2, Option.bind_eq_bind, Option.bind_some]; rfl, w2.1, rfl⟩
  | nego v o =>
    have hv : (250 : UInt8) < v ∧ v < 255 := hok
    obtain ⟨r2, w2, s2, e2⟩ := within1 (b := v) w1 (by rintro rfl; exact absurd hv.2 (by decide))
    have h1 : ¬ v < SB := by
      have := hv.1; simp only [SB, UInt8.lt_iff_toNat_lt] at *; omega
    rw [if_neg h1] at e2
    obtain ⟨r3, w3, s3, e3⟩ := within2 (b := o) w2 (by rintro rfl; exact absurd hv.1 (by decide))
    rw [if_pos (by rintro rfl; exact absurd hv.1 (by decide)), within_finish w3 (by simp)] at e3
    exact ⟨{ r3 with pos := 0 }, by simp only [Item.wire, rxAll, e1, e2, e3, Option.bind_eq_bind, Option.bind_some]; rfl,
      w3.1, rfl⟩
  | sub o p =>
    obtain ⟨r2, w2, s2, e2⟩ := within1 (b := 250) w1 (by decide)
    rw [if_neg (by decide)] at e2
    obtain ⟨r3, w3, s3, e3⟩ := within2 (b := o) w2 (by decide)
    rw [if_neg (by simp)] at e3
    have s3' : r3.subIac = false := by rw [s3, s2, s1]
    obtain ⟨r4, e4, w4, s4⟩ := within_payloads p r3 _ w3 (by simp) s3'
    obtain ⟨r5, e5, i5⟩ := within_end w4 (by simp) s4
    refine ⟨r5, ?_, i5⟩
    have e0 : rxAll r [255, 250, o] = some (r3, [], []) := by simp [rxAll, e1, e2, e3]
    simp only [Item.wire]
    rw [List.append_assoc, rxAll_append, e0]
    simp only [Option.bind_eq_bind, Option.bind_some]
    rw [rxAll_append, e4]
    simp [e5, Item.dataOf, Item.cmdOf]

theorem rxAll_items (its : List Item) (hok : ∀ i ∈ its, i.ok) : ∀ r, Idle r →
    ∃ r', rxAll r (wire its) = some (r', dataOf its, cmdsOf its) ∧ Idle r' := by
  induction its with
  | nil => intro r h; exact ⟨r, rfl, h⟩
  | cons i its ih =>
    intro r h
    obtain ⟨r1, e1, i1⟩ := rxAll_item i (hok i (by simp)) r h
    obtain ⟨r2, e2, i2⟩ := ih (fun j hj => hok j (by simp [hj])) r1 i1
    refine ⟨r2, ?_, i2⟩
    simp only [wire, dataOf, cmdsOf, List.flatMap_cons] at *
    rw [rxAll_append, e1]
    simp [e2]

/-! ### C13 -/

/-- **C13, receiving.**  Any telnet stream of data, commands, negotiations and suboptions, in
any chunks and with any room for output: reading never fails, the data and the commands seen
so far are prefixes of those of the stream in order, and all of them once the stream is used
up. -/
theorem C13_receive (its : List Item) (hok : ∀ i ∈ its, i.ok) (sched : List (Nat × Nat)) :
    ∃ q rest, feed Rx.init (wire its) sched = some (q, rest) ∧
      wire its = (wire its).take q.used ++ rest ∧
      q.out <+: dataOf its ∧ q.cmds <+: cmdsOf its ∧
      (rest = [] → q.out = dataOf its ∧ q.cmds = cmdsOf its) := by
  obtain ⟨q, rest, e, hs, hu, hr, hx⟩ := feed_spec sched Rx.init (wire its) (idle_safe init_idle)
  obtain ⟨r', e', _⟩ := rxAll_items its hok Rx.init init_idle
  have hsplit : wire its = (wire its).take q.used ++ rest := by rw [hr, List.take_append_drop]
  obtain ⟨r2, d, c, e2, _, _⟩ := rxAll_safe rest q.rx hs
  have hall : dataOf its = q.out ++ d ∧ cmdsOf its = q.cmds ++ c := by
    rw [hsplit, rxAll_append, hx] at e'
    simp only [Option.bind_eq_bind, Option.bind_some, e2, Option.some.injEq, Prod.mk.injEq] at e'
    exact ⟨e'.2.1.symm, e'.2.2.symm⟩
  refine ⟨q, rest, e, hsplit, ⟨d, hall.1.symm⟩, ⟨c, hall.2.symm⟩, ?_⟩
  rintro rfl
  simp only [rxAll, Option.some.injEq, Prod.mk.injEq] at e2
  rw [hall.1, hall.2, ← e2.2.1, ← e2.2.2]
  simp

theorem xmit_spec (d : List UInt8) : ∀ outlen, (xmit outlen d).2 ≤ d.length ∧
    (xmit outlen d).1 = escape (d.take (xmit outlen d).2) ∧ (xmit outlen d).1.length ≤ outlen ∧
    (d ≠ [] → 2 ≤ outlen → 0 < (xmit outlen d).2) := by
  induction d with
  | nil => intro n; simp [xmit, escape]
  | cons b d ih =>
    intro n
    unfold xmit
    split
    · rename_i hb
      split
      · simp [escape]; omega
      · obtain ⟨h1, h2, h3, h4⟩ := ih (n - 2)
        refine ⟨by simp; omega, ?_, by simp; omega, by simp⟩
        simp only [List.take_succ_cons]
        rw [escape_cons, ← h2, hb]
        simp [escape]
    · rename_i hb
      split
      · simp [escape]; omega
      · obtain ⟨h1, h2, h3, h4⟩ := ih (n - 1)
        refine ⟨by simp; omega, ?_, by simp; omega, by simp⟩
        simp only [List.take_succ_cons]
        rw [escape_cons, ← h2]
        simp only [IAC] at hb
        simp [escape, hb]

/-- **C13, sending.**  One call of the sender takes a prefix of the data, writes that prefix
with every 255 doubled, stays within the room given, and takes something if there are two
bytes of room. -/
theorem C13_xmit (outlen : Nat) (d : List UInt8) :
    (xmit outlen d).2 ≤ d.length ∧ (xmit outlen d).1 = escape (d.take (xmit outlen d).2) ∧
    (xmit outlen d).1.length ≤ outlen ∧ (d ≠ [] → 2 ≤ outlen → 0 < (xmit outlen d).2) :=
  xmit_spec d outlen

theorem sendAll_spec (sched : List (Nat × Nat)) : ∀ d,
    ∃ sent, d = sent ++ (sendAll d sched).2 ∧ (sendAll d sched).1 = escape sent := by
  induction sched with
  | nil => intro d; exact ⟨[], by simp [sendAll], rfl⟩
  | cons s sched ih =>
    intro d
    obtain ⟨n, outlen⟩ := s
    simp only [sendAll]
    obtain ⟨h1, h2, _, _⟩ := xmit_spec (d.take n) outlen
    obtain ⟨sent, e1, e2⟩ := ih (d.drop (xmit outlen (d.take n)).2)
    refine ⟨d.take (xmit outlen (d.take n)).2 ++ sent, ?_, ?_⟩
    · rw [List.append_assoc, ← e1, List.take_append_drop]
    · rw [escape_append, ← e2, h2, List.take_take, Nat.min_eq_left]
      · exact Nat.le_trans h1 (by simp; omega)

theorem wire_data (d : List UInt8) : wire (d.map .data) = escape d ∧ dataOf (d.map .data) = d ∧
    cmdsOf (d.map .data) = [] := by
  induction d with
  | nil => simp [wire, dataOf, cmdsOf, escape]
  | cons b d ih =>
    obtain ⟨h1, h2, h3⟩ := ih
    rw [escape_cons]
    simp only [wire, dataOf, cmdsOf, List.map_cons, List.flatMap_cons] at *
    rw [h1, h2, h3]
    simp [Item.wire, Item.dataOf, Item.cmdOf]

/-- **C13.**  Whatever chunks the data is sent in and whatever chunks it is received in: the
receiver gets a prefix of the data taken by the sender, no commands, and all of it once it has
used the stream. -/
theorem C13_transparent (d : List UInt8) (ss rs : List (Nat × Nat)) :
    ∃ sent q rest, d = sent ++ (sendAll d ss).2 ∧
      feed Rx.init (sendAll d ss).1 rs = some (q, rest) ∧ q.cmds = [] ∧
      q.out <+: sent ∧ (rest = [] → q.out = sent) := by
  obtain ⟨sent, e1, e2⟩ := sendAll_spec ss d
  obtain ⟨hw, hd, hc⟩ := wire_data sent
  obtain ⟨q, rest, e3, _, h1, h2, h3⟩ := C13_receive (sent.map .data)
    (by intro i hi; simp at hi; obtain ⟨_, _, rfl⟩ := hi; trivial) rs
  rw [hw] at e3
  rw [hd] at h1 h3
  rw [hc] at h2
  exact ⟨sent, q, rest, e1, by rw [e2]; exact e3, List.prefix_nil.1 h2, h1, fun h => (h3 h).1⟩

/-- **C13, progress.**  A call with input and room for output uses at least one byte. -/
theorem C13_progress (r : Rx) (h : Safe r) (outlen : Nat) (inp : List UInt8) (h1 : inp ≠ [])
    (h2 : 0 < outlen) : ∃ q, processData r outlen inp = some q ∧ 0 < q.used ∧ q.out.length ≤ outlen := by
  obtain ⟨q, e, _, h3, _, _, h4⟩ := processData_spec inp r outlen h
  exact ⟨q, e, h4 h1 h2, h3⟩

/-- 255s on chunk borders. -/
example : let s := sendAll [255, 1, 255, 255] [(4, 3), (1, 2), (9, 2), (9, 2)]
    s = ([255, 255, 1, 255, 255, 255, 255], []) ∧
    (feed Rx.init s.1 [(1, 9), (2, 1), (2, 1), (1, 1), (9, 9)]).map (fun x => (x.1.out, x.2))
      = some ([255, 1, 255, 255], []) := by decide +kernel
/-- A suboption with a 255 in it, between data. -/
example : (feed Rx.init (wire [.data 7, .sub 44 [1, 255, 2], .nego 251 3, .data 255]) [(3, 9), (99, 9), (99, 9),
      (99, 9)]).map (fun x => (x.1.out, x.1.cmds, x.2))
    = some ([7, 255], [[255, 250, 44, 1, 255, 2], [255, 251, 3]], []) := by decide +kernel

/-! ### C15 -/

/-- **C15.**  From the initial state no byte stream, however chunked, makes the parser leave
its 32 byte buffer, every command passed on has at most 32 bytes, and the user data written
never exceeds the bytes used. -/
theorem C15_parser_in_bounds (stream : List UInt8) (sched : List (Nat × Nat)) :
    ∃ q rest, feed Rx.init stream sched = some (q, rest) ∧ q.rx.cmd.length = 32 ∧ q.rx.pos ≤ 32 ∧
      ∀ c ∈ q.cmds, c.length ≤ 32 := by
  obtain ⟨q, rest, e, hs, _, _, hx⟩ := feed_spec sched Rx.init stream (idle_safe init_idle)
  obtain ⟨r', d, c, e2, _, hc⟩ := rxAll_safe (stream.take q.used) Rx.init (idle_safe init_idle)
  rw [hx] at e2
  simp only [Option.some.injEq, Prod.mk.injEq] at e2
  refine ⟨q, rest, e, hs.1, hs.2, ?_⟩
  rw [e2.2.2]; exact hc

/-- A suboption of 100 bytes: cut to 31. -/
example : (feed Rx.init ([255, 250, 44] ++ List.replicate 100 5 ++ [255, 240, 9]) [(200, 50), (200, 50)]).map
    (fun x => (x.1.out, x.1.cmds.map List.length)) = some ([9], [31]) := by decide +kernel

/-! ### C14 -/

/-- Number of deliveries in a schedule that found a message. -/
def deliveries (n : Net) : List (Bool × Bool) → Nat
  | [] => 0
  | (w, ans) :: s => (if (if w then n.toA else n.toB) = [] then 0 else 1) + deliveries (n.deliver w ans) s

def msgPot (m : UInt8 × UInt8) : Nat := if m.1 = WILL ∨ m.1 = DO then 2 else 1
def optPot (c : Opt) : Nat :=
  (if c.remWill then 1 else 0) + (if c.remDo then 1 else 0) + (if c.sentWill then 0 else 2) +
    (if c.sentDo then 0 else 2)
def msgsPot (l : List (UInt8 × UInt8)) : Nat := (l.map msgPot).sum
def optsPot (l : List Opt) : Nat := (l.map optPot).sum

theorem find_update {cmds : List Opt} {o : UInt8} {c c' : Opt} (h : findCmd cmds o = some c)
    (hc : c'.option = c.option) : optsPot (update c' cmds) + optPot c = optsPot cmds + optPot c' := by
  induction cmds with
  | nil => simp [findCmd] at h
  | cons d ds ih =>
    simp only [findCmd, List.find?_cons] at h
    split at h
    · rename_i hd
      simp only [Option.some.injEq] at h
      subst h
      simp [update, hc, optsPot]; omega
    · rename_i hd
      have ho : c.option = o := by
        have := List.find?_some h; simpa using this
      have hne : ¬ d.option = c'.option := by
        rw [hc, ho]; simpa using hd
      have := ih h
      simp [update, hne, optsPot] at this ⊢
      omega

theorem msgsPot_append (a b : List (UInt8 × UInt8)) : msgsPot (a ++ b) = msgsPot a + msgsPot b := by
  simp [msgsPot]

theorem pot_step {cmds : List Opt} {o : UInt8} {c c' : Opt} {x y : Nat} (h : findCmd cmds o = some c)
    (hc : c'.option = c.option) (hlt : optPot c' + x < optPot c + y) :
    optsPot (update c' cmds) + x < optsPot cmds + y := by
  have := find_update h hc; omega

/-- Handling a command uses up potential. -/
theorem negotiate_pot (cmds : List Opt) (v o : UInt8) (ans : Bool) :
    optsPot (negotiate cmds v o ans).1 + msgsPot (negotiate cmds v o ans).2 < optsPot cmds + msgPot (v, o) := by
  unfold negotiate
  split
  · rename_i hv; subst hv
    cases h : findCmd cmds o with
    | none => simp [msgsPot, msgPot, WILL, WONT, DO, DONT]
    | some c =>
      obtain ⟨op, a, b, s1, s2, r1, r2, hh⟩ := c
      simp only []
      cases b <;> cases hh <;> cases ans <;> cases s2 <;> simp only [Bool.not_true, Bool.not_false,
        Bool.and_true, Bool.and_false, Bool.true_and, Bool.false_and, Bool.or_true, Bool.or_false, Bool.true_or,
        Bool.false_or, if_true, if_false, Bool.false_eq_true] <;>
      (refine pot_step h rfl ?_
       cases s1 <;> cases r1 <;> cases r2 <;> simp [optPot, msgsPot, msgPot, WILL, WONT, DO, DONT])
  split
  · rename_i hv; subst hv
    cases h : findCmd cmds o with
    | none => simp [msgsPot, msgPot, WILL, WONT, DO, DONT]
    | some c =>
      obtain ⟨op, a, b, s1, s2, r1, r2, hh⟩ := c
      simp only []
      cases r1 <;> cases s2 <;> simp only [Bool.not_true, Bool.not_false, Bool.or_true, Bool.or_false,
        Bool.true_or, Bool.false_or, if_true, if_false, Bool.false_eq_true] <;>
      (refine pot_step h rfl ?_
       cases s1 <;> cases r2 <;> simp [optPot, msgsPot, msgPot, WILL, WONT, DO, DONT])
  split
  · rename_i hv; subst hv
    cases h : findCmd cmds o with
    | none => simp [msgsPot, msgPot, WILL, WONT, DO, DONT]
    | some c =>
      obtain ⟨op, a, b, s1, s2, r1, r2, hh⟩ := c
      simp only []
      cases a <;> cases hh <;> cases ans <;> cases s1 <;> simp only [Bool.not_true, Bool.not_false,
        Bool.or_true, Bool.or_false, Bool.true_or,
        Bool.false_or, if_true, if_false, Bool.false_eq_true] <;>
      (refine pot_step h rfl ?_
       cases s2 <;> cases r1 <;> cases r2 <;> simp [optPot, msgsPot, msgPot, WILL, WONT, DO, DONT])
  split
  · rename_i hv; subst hv
    cases h : findCmd cmds o with
    | none => simp [msgsPot, msgPot, WILL, WONT, DO, DONT]
    | some c =>
      obtain ⟨op, a, b, s1, s2, r1, r2, hh⟩ := c
      simp only []
      cases r2 <;> cases s1 <;> simp only [Bool.not_true, Bool.not_false, Bool.or_true, Bool.or_false,
        Bool.true_or, Bool.false_or, if_true, if_false, Bool.false_eq_true] <;>
      (refine pot_step h rfl ?_
       cases s2 <;> cases r1 <;> simp [optPot, msgsPot, msgPot, WILL, WONT, DO, DONT])
  · simp only [msgsPot, msgPot, List.map_nil, List.sum_nil]; split <;> omega

def netPot (n : Net) : Nat := optsPot n.aOpts + optsPot n.bOpts + msgsPot n.toA + msgsPot n.toB

theorem deliver_pot (n : Net) (w ans : Bool) :
    netPot (n.deliver w ans) + (if (if w then n.toA else n.toB) = [] then 0 else 1) ≤ netPot n := by
  cases w
  · cases h : n.toB with
    | nil => simp [Net.deliver, h]
    | cons m rest =>
      have : _ < _ + msgPot m := negotiate_pot n.bOpts m.1 m.2 ans
      have e : msgsPot (m :: rest) = msgPot m + msgsPot rest := by simp [msgsPot]
      simp [Net.deliver, h, netPot, msgsPot_append, e]; omega
  · cases h : n.toA with
    | nil => simp [Net.deliver, h]
    | cons m rest =>
      have : _ < _ + msgPot m := negotiate_pot n.aOpts m.1 m.2 ans
      have e : msgsPot (m :: rest) = msgPot m + msgsPot rest := by simp [msgsPot]
      simp [Net.deliver, h, netPot, msgsPot_append, e]; omega

theorem deliveries_pot (s : List (Bool × Bool)) : ∀ n, deliveries n s ≤ netPot n := by
  induction s with
  | nil => intro n; simp [deliveries]
  | cons x s ih =>
    intro n
    obtain ⟨w, ans⟩ := x
    have h1 := deliver_pot n w ans
    have h2 := ih (n.deliver w ans)
    simp only [deliveries]; omega

theorem optsPot_le (l : List Opt) : optsPot l ≤ 6 * l.length := by
  induction l with
  | nil => simp [optsPot]
  | cons c l ih =>
    have : optPot c ≤ 6 := by unfold optPot; (repeat' split) <;> omega
    simp [optsPot] at *; omega
theorem msgsPot_le (l : List (UInt8 × UInt8)) : msgsPot l ≤ 2 * l.length := by
  induction l with
  | nil => simp [msgsPot]
  | cons c l ih =>
    have : msgPot c ≤ 2 := by unfold msgPot; split <;> omega
    simp [msgsPot] at *; omega

/-- **C14, termination.**  Whatever option tables the ends have, whatever is on the way,
whatever the handlers answer and in whatever order messages are delivered: at most
`2 × messages on the way + 6 × table entries` messages are ever delivered, so negotiation
becomes quiet.  What is missing for C14 is the claim that no end answers an acknowledgement of
its own request, which the RFC 2217 server violates (below). -/
theorem C14_terminates_partial (n : Net) (s : List (Bool × Bool)) :
    deliveries n s ≤ 2 * (n.toA.length + n.toB.length) + 6 * (n.aOpts.length + n.bOpts.length) := by
  have := deliveries_pot s n
  have h1 := optsPot_le n.aOpts; have h2 := optsPot_le n.bOpts
  have h3 := msgsPot_le n.toA; have h4 := msgsPot_le n.toB
  unfold netPot at this; omega

/-- **C14, acknowledgements.**  An end that has recorded sending its DO (WILL) and still wants
the option does not answer the WILL (DO) coming back, nor the WONT (DONT) that refuses it. -/
theorem C14_ack_silent_partial (cmds : List Opt) (o : UInt8) (c : Opt) (ans : Bool)
    (h : findCmd cmds o = some c) :
    (c.sentDo = true → c.iDo = true → (negotiate cmds WILL o ans).2 = []) ∧
    (c.sentDo = true → c.remWill = false → (negotiate cmds WONT o ans).2 = []) ∧
    (c.sentWill = true → (if c.hasHandler then ans else c.iWill) = true → (negotiate cmds DO o ans).2 = []) ∧
    (c.sentWill = true → c.remDo = false → (negotiate cmds DONT o ans).2 = []) := by
  refine ⟨?_, ?_, ?_, ?_⟩
  · intro a b; simp [negotiate, h, a, b]
  · intro a b; simp [negotiate, h, a, b, WILL, WONT]
  · intro a b
    simp only [negotiate, h]
    cases hh : c.hasHandler <;> simp_all [WILL, WONT, DO]
  · intro a b; simp [negotiate, h, a, b, WILL, WONT, DO, DONT]

/-- **C14 is violated** by the RFC 2217 server: it sends DO 44 at start, the table still says
"not sent", and the peer's WILL 44 that acknowledges it is answered with a second DO 44. -/
theorem C14_ack_answered_violated :
    (DO, 44) ∈ serverInit true false ∧ (negotiate (serverCmds true false) WILL 44 true).2 = [(DO, 44)] := by
  decide

/-- Server and client from start to quiet. -/
example : let n : Net := ⟨serverCmds true true, clientCmds true true, clientInit true true, serverInit true true⟩
    let s := List.replicate 20 (true, true) ++ List.replicate 20 (false, true) ++ List.replicate 20 (true, true)
        ++ List.replicate 20 (false, true)
    deliveries n s = 18 ∧ (s.foldl (fun m x => m.deliver x.1 x.2) n).toA = [] ∧
      (s.foldl (fun m x => m.deliver x.1 x.2) n).toB = [] := by decide +kernel

/-! ### C51 -/

/-- What can happen at the write side. -/
inductive TxOp where
  /-- `telnet_cmd_send` of one command. -/
  | cmd (i : Item)
  /-- `telnet_send_option`. -/
  | opt (o : UInt8) (p : List UInt8)
  /-- `telnet_ul_write` and what the lower layer accepts. -/
  | write (sg : List (List UInt8)) (accTn accUser : Nat)

/-- A run: the bytes sent, the user data reported as accepted, the commands given to
`telnet_cmd_send`/`telnet_send_option`. -/
structure TxLog where
  tx : Tx
  wire : List UInt8 := []
  user : List UInt8 := []
  cmds : List Item := []

def TxLog.step (maxWrite : Nat) (l : TxLog) : TxOp → TxLog
  | .cmd i => { l with tx := l.tx.cmdSend i.wire, cmds := l.cmds ++ [i] }
  | .opt o p => { l with tx := l.tx.sendOption (o :: p), cmds := l.cmds ++ [.sub o p] }
  | .write sg a b =>
    let r := l.tx.ulWrite maxWrite sg a b
    { l with tx := r.1, wire := l.wire ++ r.2.1, user := l.user ++ sg.flatten.take r.2.2 }

/-- There is room in the command queue for what the operation queues. -/
def TxOp.fits (t : Tx) : TxOp → Prop
  | .cmd i => i.ok ∧ i.dataOf = [] ∧ t.cmdQ.length + i.wire.length ≤ 256
  | .opt o p => o ≠ 255 ∧ t.cmdQ.length + (Item.sub o p).wire.length ≤ 256
  | .write _ _ _ => True

def TxLog.runFits (maxWrite : Nat) (l : TxLog) : List TxOp → Prop
  | [] => True
  | op :: ops => op.fits l.tx ∧ (l.step maxWrite op).runFits maxWrite ops

def TxLog.run (maxWrite : Nat) (l : TxLog) (ops : List TxOp) : TxLog := ops.foldl (TxLog.step maxWrite) l

theorem dbl_escape (l : List UInt8) : dbl l = escape l := by
  induction l with
  | nil => rfl
  | cons b l ih =>
    rw [escape_cons, dbl, ih]
    by_cases h : b = 255 <;> simp [escape, h, IAC]

theorem takeSg_spec (m : Nat) (hm : 2 ≤ m) (sg : List (List UInt8)) :
    (takeSg m sg).1 = escape (sg.flatten.take (takeSg m sg).2) := by
  induction sg with
  | nil => simp [takeSg, escape]
  | cons d sg ih =>
    obtain ⟨h1, h2, _, h4⟩ := xmit_spec d m
    unfold takeSg
    simp only []
    split
    · rw [h2, List.flatten_cons, List.take_append_of_le_length h1]
    · rename_i h
      have : d = [] := by
        cases d with
        | nil => rfl
        | cons x d => exact absurd (h4 (by simp) hm) (by omega)
      subst this
      simpa using ih

/-- Where the stream is between whole items. -/
structure TxInv (l : TxLog) : Prop where
  ex : ∃ (its pend : List Item) (ud : List UInt8) (restC restU : List UInt8),
    (∀ i ∈ its ++ pend, i.ok) ∧ (∀ i ∈ pend, i.dataOf = []) ∧
    l.wire ++ restC ++ restU = wire its ∧
    l.tx.cmdQ = restC ++ wire pend ∧ l.tx.wdata = restU ++ escape ud ∧
    dataOf its ++ ud = l.user ∧ cmdsOf its ++ cmdsOf pend = cmdsOf l.cmds ∧
    (restC ≠ [] → l.tx.st = .inTnWrite) ∧ (restU ≠ [] → l.tx.st = .inUserWrite) ∧
    (l.tx.st = .inTnWrite → l.tx.cmdQ ≠ []) ∧ (restU ≠ [] → ud = []) ∧
    (l.tx.st = .inUserWrite → l.tx.wdata ≠ [] ∧ ud = [])

theorem wire_append (a b : List Item) : wire (a ++ b) = wire a ++ wire b := by simp [wire]
theorem dataOf_append (a b : List Item) : dataOf (a ++ b) = dataOf a ++ dataOf b := by simp [dataOf]
theorem cmdsOf_append (a b : List Item) : cmdsOf (a ++ b) = cmdsOf a ++ cmdsOf b := by simp [cmdsOf]
theorem dataOf_cmds {l : List Item} (h : ∀ i ∈ l, i.dataOf = []) : dataOf l = [] := by
  simpa [dataOf] using h

theorem inv_queue {l : TxLog} (i : Item) (hi : i.ok) (hd : i.dataOf = []) (h : TxInv l) :
    TxInv { l with tx := { l.tx with cmdQ := l.tx.cmdQ ++ i.wire }, cmds := l.cmds ++ [i] } := by
  obtain ⟨its, pend, ud, rc, ru, h1, h2, h3, h4, h5, h6, h7, h8, h9, h10, h11, h12⟩ := h
  refine ⟨its, pend ++ [i], ud, rc, ru, ?_, ?_, h3, ?_, h5, h6, ?_, h8, h9, ?_, h11, h12⟩
  · intro j hj
    simp only [List.mem_append, List.mem_singleton] at hj h1
    rcases hj with hj | hj | rfl
    · exact h1 j (Or.inl hj)
    · exact h1 j (Or.inr hj)
    · exact hi
  · intro j hj
    simp only [List.mem_append, List.mem_singleton] at hj
    rcases hj with hj | rfl
    · exact h2 j hj
    · exact hd
  · simp only [h4, wire_append]; simp [wire]
  · rw [cmdsOf_append, ← List.append_assoc, h7]; simp [cmdsOf_append]
  · intro hs; have := h10 hs; simp [this]

theorem escape_eq_nil {d : List UInt8} (h : escape d = []) : d = [] := by
  cases d with
  | nil => rfl
  | cons b d => rw [escape_cons] at h; by_cases hb : b = 255 <;> simp [escape, hb] at h

/-- Taking user data in. -/
theorem inv_take {l : TxLog} (d : List UInt8) (hw : l.tx.wdata = []) (h : TxInv l) :
    TxInv { l with tx := { l.tx with wdata := escape d }, user := l.user ++ d } := by
  obtain ⟨its, pend, ud, rc, ru, h1, h2, h3, h4, h5, h6, h7, h8, h9, h10, h11, h12⟩ := h
  rw [hw] at h5
  have h5' := List.append_eq_nil_iff.1 h5.symm
  have hu := escape_eq_nil h5'.2
  subst hu
  refine ⟨its, pend, d, rc, ru, h1, h2, h3, h4, ?_, ?_, h7, h8, h9, h10, ?_, ?_⟩
  · simp [h5'.1]
  · simp only [List.append_nil] at h6; rw [h6]
  · intro hr; exact absurd h5'.1 hr
  · intro hs; exact absurd hw (h12 hs).1

/-- Sending queued commands. -/
theorem inv_cmds {l : TxLog} (a : Nat) (hs : l.tx.st ≠ .inUserWrite) (h : TxInv l) :
    TxInv { l with
      tx := { l.tx with cmdQ := l.tx.cmdQ.drop a
                        st := if l.tx.cmdQ.drop a ≠ [] then .inTnWrite else .notWriting }
      wire := l.wire ++ l.tx.cmdQ.take a } := by
  obtain ⟨its, pend, ud, rc, ru, h1, h2, h3, h4, h5, h6, h7, h8, h9, h10, h11, h12⟩ := h
  have hru : ru = [] := by
    cases ru with
    | nil => rfl
    | cons x ru => exact absurd (h9 (by simp)) hs
  subst hru
  refine ⟨its ++ pend, [], ud, l.tx.cmdQ.drop a, [], by simpa using h1, by simp, ?_, by simp [wire],
    h5, ?_, ?_, ?_, by simp, ?_, by simp, ?_⟩
  · simp only [List.append_nil, List.append_assoc, List.take_append_drop]
    rw [h4, wire_append, ← h3]; simp
  · rw [dataOf_append, dataOf_cmds h2, List.append_nil, h6]
  · rw [cmdsOf_append, h7]; simp [cmdsOf]
  · intro hr; simp [hr]
  · intro hr hd; simp only at hd hr; simp [hd] at hr
  · intro hr; simp only at hr; split at hr <;> simp at hr

/-- Sending user data. -/
theorem inv_user {l : TxLog} (b : Nat) (hs : l.tx.st ≠ .inTnWrite) (h : TxInv l) :
    TxInv { l with
      tx := { l.tx with wdata := l.tx.wdata.drop b
                        st := if b ≥ l.tx.wdata.length then .notWriting else .inUserWrite }
      wire := l.wire ++ l.tx.wdata.take b } := by
  obtain ⟨its, pend, ud, rc, ru, h1, h2, h3, h4, h5, h6, h7, h8, h9, h10, h11, h12⟩ := h
  have hrc : rc = [] := by
    cases rc with
    | nil => rfl
    | cons x rc => exact absurd (h8 (by simp)) hs
  subst hrc
  obtain ⟨w1, w2, w3⟩ := wire_data ud
  refine ⟨its ++ ud.map .data, pend, [], [], l.tx.wdata.drop b, ?_, h2, ?_, h4, by simp [escape], ?_, ?_, by simp,
    ?_, ?_, by simp, ?_⟩
  · intro i hi
    simp only [List.mem_append, List.mem_map] at hi h1
    rcases hi with (hi | ⟨_, _, rfl⟩) | hi
    · exact h1 i (Or.inl hi)
    · trivial
    · exact h1 i (Or.inr hi)
  · simp only [List.append_nil, List.append_assoc, List.take_append_drop]
    rw [h5, wire_append, w1, ← h3]; simp
  · rw [dataOf_append, w2, List.append_nil, h6]
  · rw [cmdsOf_append, w3, List.append_nil, h7]
  · intro hr
    have : ¬ b ≥ l.tx.wdata.length := by intro hb; exact hr (List.drop_of_length_le hb)
    simp [this]
  · intro hr; simp only at hr; split at hr <;> simp at hr
  · intro hr
    simp only at hr
    split at hr
    · simp at hr
    · rename_i hb
      refine ⟨?_, rfl⟩
      simp only [ne_eq, List.drop_eq_nil_iff]; omega

theorem inv_write {l : TxLog} (m : Nat) (hm : 2 ≤ m) (sg : List (List UInt8)) (a b : Nat) (h : TxInv l) :
    TxInv (l.step m (.write sg a b)) := by
  -- the state after taking data in
  have hA : ∃ x : List UInt8 × Nat, x = (if l.tx.wdata.isEmpty then takeSg m sg else (l.tx.wdata, 0)) ∧
      TxInv { l with tx := { l.tx with wdata := x.1 }, user := l.user ++ sg.flatten.take x.2 } := by
    refine ⟨_, rfl, ?_⟩
    split
    · rename_i hw
      rw [takeSg_spec m hm]
      exact inv_take _ (by simpa using hw) h
    · simpa using h
  obtain ⟨x, hx, hA⟩ := hA
  simp only [TxLog.step, Tx.ulWrite]
  rw [← hx]
  by_cases hB : l.tx.st ≠ .inUserWrite ∧ l.tx.cmdQ ≠ []
  · have hB' := inv_cmds (l := { l with tx := { l.tx with wdata := x.1 }, user := l.user ++ sg.flatten.take x.2 })
      a hB.1 hA
    simp only [if_pos hB]
    by_cases hC : (if l.tx.cmdQ.drop a ≠ [] then WState.inTnWrite else WState.notWriting) ≠ .inTnWrite ∧ x.1 ≠ []
    · have hC' := inv_user (l := { l with
          tx := { cmdQ := l.tx.cmdQ.drop a, wdata := x.1
                  st := if l.tx.cmdQ.drop a ≠ [] then .inTnWrite else .notWriting }
          wire := l.wire ++ l.tx.cmdQ.take a, user := l.user ++ sg.flatten.take x.2 }) b hC.1 hB'
      simp only [if_pos hC]
      simpa using hC'
    · simp only [if_neg hC]
      simpa using hB'
  · simp only [if_neg hB]
    by_cases hC : l.tx.st ≠ .inTnWrite ∧ x.1 ≠ []
    · have hC' := inv_user (l := { l with tx := { l.tx with wdata := x.1 }, user := l.user ++ sg.flatten.take x.2 })
        b hC.1 hA
      simp only [if_pos hC]
      simpa using hC'
    · simp only [if_neg hC]
      simpa using hA

theorem inv_run (m : Nat) (hm : 2 ≤ m) (ops : List TxOp) : ∀ l, TxInv l → l.runFits m ops →
    TxInv (l.run m ops) := by
  induction ops with
  | nil => intro l h _; exact h
  | cons op ops ih =>
    intro l h hf
    refine ih _ ?_ hf.2
    cases op with
    | cmd i =>
      obtain ⟨h1, h2, h3⟩ := hf.1
      have := inv_queue i h1 h2 h
      simp only [TxLog.step, Tx.cmdSend]
      rwa [List.take_of_length_le (by simp only [maxXmit]; omega)]
    | opt o p =>
      obtain ⟨h1, h3⟩ := hf.1
      have := inv_queue (.sub o p) h1 rfl h
      have hw : [IAC, SB] ++ dbl (o :: p) ++ [IAC, SE] = (Item.sub o p).wire := by
        rw [dbl_escape, escape_cons]
        simp [Item.wire, escape, h1]
      simp only [TxLog.step, Tx.sendOption]
      rw [hw, if_neg (by simp only [maxXmit]; omega)]
      exact this
    | write sg a b => exact inv_write m hm sg a b h

/-- **C51** (partial: as long as the command queue has room for each command, and the lower
layer reports no error).  Start after queueing an initial sequence, then any operations: the
bytes sent so far are the start of a well-formed telnet stream of the user data accepted
(less what is still held back) and the commands queued (less those still queued), in order.  When
nothing is left to send, the peer decodes exactly the user data and exactly the commands. -/
theorem C51_commands_between_items_partial (m : Nat) (hm : 2 ≤ m) (seq : List Item) (ext : Bool)
    (hseq : ∀ i ∈ seq, i.ok ∧ i.dataOf = []) (hlen : (wire seq).length ≤ 256) (ops : List TxOp)
    (hf : TxLog.runFits m { tx := Tx.init (wire seq) ext, cmds := seq } ops) :
    let l := TxLog.run m { tx := Tx.init (wire seq) ext, cmds := seq } ops
    (∃ its rest, (∀ i ∈ its, i.ok) ∧ l.wire ++ rest = wire its ∧
      dataOf its <+: l.user ∧ cmdsOf its <+: cmdsOf l.cmds) ∧
    (l.tx.cmdQ = [] → l.tx.wdata = [] →
      ∃ r, rxAll Rx.init l.wire = some (r, l.user, cmdsOf l.cmds)) := by
  have h0 : TxInv { tx := Tx.init (wire seq) ext, cmds := seq } := by
    have hq : (Tx.init (wire seq) ext).cmdQ = wire seq := by
      simp [Tx.init, List.take_of_length_le, hlen]
    refine ⟨[], seq, [], [], [], by simpa using fun i hi => (hseq i hi).1, fun i hi => (hseq i hi).2,
      by simp [wire], by simpa using hq, by simp [Tx.init, escape], by simp [dataOf], by simp [cmdsOf], by simp,
      by simp, ?_, by simp, ?_⟩
    · intro hs hc
      simp only at hc
      rw [hq] at hc
      simp [Tx.init, hc] at hs
    · intro hs
      simp only [Tx.init] at hs
      split at hs <;> simp at hs
  have h := inv_run m hm ops _ h0 hf
  intro l
  obtain ⟨its, pend, ud, rc, ru, h1, h2, h3, h4, h5, h6, h7, h8, h9, h10, h11, h12⟩ := h
  refine ⟨⟨its, rc ++ ru, fun i hi => h1 i (by simp [hi]), by simpa using h3, ⟨ud, h6⟩, ⟨cmdsOf pend, h7⟩⟩, ?_⟩
  intro hc hw
  rw [show l.tx.cmdQ = _ from h4] at hc
  rw [show l.tx.wdata = _ from h5] at hw
  obtain ⟨c1, c2⟩ := List.append_eq_nil_iff.1 hc
  obtain ⟨u1, u2⟩ := List.append_eq_nil_iff.1 hw
  have hud := escape_eq_nil u2
  subst hud c1 u1
  have hpend : pend = [] := by
    cases pend with
    | nil => rfl
    | cons i p =>
      have hi := h2 i (by simp)
      simp only [wire, List.flatMap_cons, List.append_eq_nil_iff] at c2
      cases i <;> simp [Item.wire, Item.dataOf] at c2 hi
  subst hpend
  obtain ⟨r, e, _⟩ := rxAll_items its (fun i hi => h1 i (by simp [hi])) Rx.init init_idle
  simp only [List.append_nil] at h3 h6
  refine ⟨r, ?_⟩
  rw [show l.wire = wire its from h3, e, show l.user = _ from h6.symm]
  rw [show cmdsOf l.cmds = _ from h7.symm]; simp [cmdsOf]

/-- A command queued while a block of user data is half sent waits for its end. -/
example :
    let ops := [TxOp.write [[255, 1]] 2 9, .write [[5]] 9 1, .cmd (.nego 253 0), .write [[7]] 9 1, .write [] 9 9,
      .write [] 9 9]
    let l := TxLog.run 20 { tx := Tx.init (wire [.nego 251 3]) true, cmds := [.nego 251 3] } ops
    l.wire = [255, 251, 3, 255, 255, 1, 255, 253, 0] ∧ l.user = [255, 1] ∧ l.tx.cmdQ = [] := by decide +kernel

/-- **C51 is violated** when the 256 byte command queue fills up: `telnet_cmd_send` keeps the
part of the command that fits and only sets `td->error`, which nothing reads.  86 answers of 3
bytes are queued while the lower layer is blocked; the last one is cut to one byte, an IAC, and
the user's data `[253, 1]` arrives as the command DO 1. -/
theorem C51_truncated_command_violated :
    let ops := List.replicate 86 (TxOp.cmd (.nego WONT 9)) ++ [.write [[253, 1]] 256 2]
    let l := TxLog.run 1024 { tx := Tx.init [] false } ops
    l.tx.cmdQ = [] ∧ l.tx.wdata = [] ∧ l.user = [253, 1] ∧
      (rxAll Rx.init l.wire).map (fun x => (x.2.1, x.2.2.getLast?)) = some ([], some [255, DO, 1]) := by
  decide +kernel

/-- **C51 also needs room for an escaped byte**: with a write buffer of one byte an entry that
starts with 255 is skipped and the next entry is sent, while the caller is told that one byte
(the 255) was taken. -/
theorem C51_skipped_entry_violated :
    let r := (Tx.init [] false).ulWrite 1 [[255], [7]] 9 9
    r.2 = ([7], 1) := by decide +kernel

end Gensio.Telnet
