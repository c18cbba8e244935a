import Verif.Lemmas.MuxOps

/-!
# C34: the byte stream of a mux is well framed
-/

namespace Gensio.Mux

/-- A complete message of the mux protocol, as described in lib/gensio_mux.c:52-141: the first byte has the type and the
size of the header in words, and `NEW_CHANNEL` and `DATA` are followed by a length and that many bytes. -/
inductive Message : List UInt8 → Prop
  | init : Message [0x11, 0, 1, 0]
  | newChannel (i1 i2 w1 w2 w3 w4 l1 l2 : UInt8) (service : List UInt8) : service.length = l1.toNat * 256 + l2.toNat →
      Message ([0x22, 0, i1, i2, w1, w2, w3, w4, l1, l2] ++ service)
  | newChannelRsp (r1 r2 w1 w2 w3 w4 i1 i2 e1 e2 : UInt8) : Message [0x33, 0, r1, r2, w1, w2, w3, w4, i1, i2, e1, e2]
  | closeChannel (r1 r2 c1 c2 : UInt8) : Message [0x42, 0, r1, r2, c1, c2, 0, 0]
  | data (f r1 r2 a1 a2 a3 a4 l1 l2 : UInt8) (payload : List UInt8) : payload.length = l1.toNat * 256 + l2.toNat →
      Message ([0x52, f, r1, r2, a1, a2, a3, a4, l1, l2] ++ payload)

/-- A prefix of a sequence of messages. -/
def Framed (s : List UInt8) : Prop := ∃ l : List (List UInt8), (∀ x ∈ l, Message x) ∧ s <+: l.flatten

theorem Msg.message (x : Msg) (h : x.Ok) : Message x.bytes := by
  cases x with
  | init => exact .init
  | newChan id window service =>
    have h : service.length < 65536 := h
    exact .newChannel _ _ _ _ _ _ _ _ service (be16_val h).symm
  | rsp remote window id err => exact .newChannelRsp ..
  | close remote err => exact .closeChannel ..
  | data remote ack flags payload =>
    have h : payload.length < 65536 := h
    exact .data _ _ _ _ _ _ _ _ _ payload (be16_val h).symm

theorem flatMap_messages : ∀ (log : List Msg), (∀ x ∈ log, x.Ok) →
    ∃ l : List (List UInt8), (∀ x ∈ l, Message x) ∧ log.flatMap Msg.bytes = l.flatten
  | [], _ => ⟨[], by simp, rfl⟩
  | x :: log, h => by
    obtain ⟨l, h1, h2⟩ := flatMap_messages log (fun y hy => h y (List.mem_cons_of_mem _ hy))
    refine ⟨x.bytes :: l, ?_, by rw [List.flatMap_cons, h2, List.flatten_cons]⟩
    intro y hy
    rcases List.mem_cons.mp hy with rfl | hy
    · exact x.message (h x (List.mem_cons_self ..))
    · exact h1 y hy

theorem Inv.framed {m : Mux} {log : List Msg} (h : Inv m log) : Framed m.out := by
  obtain ⟨Q, hM⟩ := h.tx
  obtain ⟨l, h1, h2⟩ := flatMap_messages log hM.logOk
  exact ⟨l, h1, m.cur, by rw [hM.frame, h2]⟩

theorem Inv.run : ∀ (ops : List Op) (m m' : Mux) (log : List Msg), Inv m log → Len16 m → 10 ≤ m.maxWrite →
    m.maxWrite ≤ 65538 → Guarded m ops = true → m.run ops = some m' → ∃ log', Inv m' log'
  | [], m, m', log, h, _, _, _, _, e => by rw [Mux.run] at e; rw [← Option.some.inj e]; exact ⟨log, h⟩
  | op :: ops, m, m', log, h, h16, h1, h2, hg, e => by
    rw [Mux.run] at e
    rw [Guarded, Bool.and_eq_true] at hg
    cases hs : m.step op with
    | none => rw [hs] at e; cases e
    | some m1 =>
      rw [hs] at e hg
      obtain ⟨⟨log1, a1⟩, a2, a3⟩ := h.step h16 h1 h2 (of_decide_eq_true hg.1) hs
      exact Inv.run ops m1 m' log1 a1 a2 (by rw [a3]; exact h1) (by rw [a3]; exact h2) hg.2 e

theorem Inv.start (isClient : Bool) (maxRead maxWrite : Nat) : Inv (Mux.start isClient maxRead maxWrite) [] := by
  refine ⟨⟨fun _ => [], ?_⟩, ?_, ?_⟩
  · refine ⟨?_, ?_, ?_, ?_, ?_, ?_, List.nodup_nil, ?_, Or.inl ⟨rfl, rfl⟩, ?_, rfl, ?_⟩ <;>
      simp [Mux.start]
  · intro i c hc; simp [Mux.start] at hc
  · intro i c hc; simp [Mux.start] at hc

/-- C34, partial: the bytes given to the child are a prefix of a sequence of complete messages, for every history of calls,
received bytes and partial writes of the child in which none of the events of `Guard` happens (they are shown to break
the stream in `C34_rsp_violated`, `C34_init_violated` and `C34_close_violated`).  Write buffers over 65538 bytes are left
out as well: there a message does not fit the length field. -/
theorem C34_framed_partial (isClient : Bool) (maxRead maxWrite : Nat) (h1 : 10 ≤ maxWrite) (h2 : maxWrite ≤ 65538)
    (ops : List Op) (m : Mux) (hg : Guarded (Mux.start isClient maxRead maxWrite) ops = true)
    (h : (Mux.start isClient maxRead maxWrite).run ops = some m) : Framed m.out := by
  obtain ⟨log, hI⟩ := Inv.run ops _ m [] (Inv.start isClient maxRead maxWrite)
    ⟨by simp [Mux.start], by simp [Mux.start]⟩ h1 h2 hg h
  exact hI.framed

/-- C34, partial: sending never fails an assertion nor reads outside a buffer, in the same histories. -/
theorem C34_send_partial (isClient : Bool) (maxRead maxWrite : Nat) (h1 : 10 ≤ maxWrite) (h2 : maxWrite ≤ 65538)
    (ops : List Op) (m : Mux) (hg : Guarded (Mux.start isClient maxRead maxWrite) ops = true)
    (h : (Mux.start isClient maxRead maxWrite).run ops = some m) (ans : List (Option Nat)) :
    ∃ m', m.writeReady ans = some m' ∧ Framed m'.out := by
  obtain ⟨log, hI⟩ := Inv.run ops _ m [] (Inv.start isClient maxRead maxWrite)
    ⟨by simp [Mux.start], by simp [Mux.start]⟩ h1 h2 hg h
  obtain ⟨Q, hM⟩ := hI.tx
  obtain ⟨m', log', Q', e, s⟩ := writeReady_spec hM hI.svc ans
  have hM' : MInv m' log' Q' := MInv.steps s hM
  obtain ⟨l, h3, h4⟩ := flatMap_messages log' hM'.logOk
  exact ⟨m', e, l, h3, m'.cur, by rw [hM'.frame, h4]⟩

/-! ## Messages can be told apart -/

theorem Message.prefixFree {x y s t : List UInt8} (hx : Message x) (hy : Message y) (h : x ++ s <+: y ++ t) : x = y := by
  obtain ⟨u, h⟩ := h
  cases hx <;> cases hy <;> simp only [List.cons_append, List.nil_append, List.append_assoc, List.cons.injEq] at h <;>
    first
      | rfl
      | exact absurd h.1 (by decide)
      | skip
  · rename_i hl1 _ _ _ _ _ _ _ _ _ hl2
    obtain ⟨-, -, rfl, rfl, rfl, rfl, rfl, rfl, rfl, rfl, h⟩ := h
    rw [(List.append_inj h (by rw [hl1, hl2])).1]
  · simp [h]
  · simp [h]
  · rename_i hl1 _ _ _ _ _ _ _ _ _ _ hl2
    obtain ⟨-, rfl, rfl, rfl, rfl, rfl, rfl, rfl, rfl, rfl, h⟩ := h
    rw [(List.append_inj h (by rw [hl1, hl2])).1]

/-- What follows a message is framed again. -/
theorem Framed.tail {x s : List UInt8} (hx : Message x) (h : Framed (x ++ s)) : Framed s := by
  obtain ⟨l, h1, h2⟩ := h
  cases l with
  | nil =>
    have hp : 0 < x.length := by cases hx <;> simp
    have h2 : x ++ s = [] := by simpa using h2
    rw [(List.append_eq_nil_iff.mp h2).1] at hp
    simp at hp
  | cons y l =>
    rw [List.flatten_cons] at h2
    have e := hx.prefixFree (h1 y (List.mem_cons_self ..)) h2
    subst e
    exact ⟨l, fun z hz => h1 z (List.mem_cons_of_mem _ hz), (List.prefix_append_right_inj x).mp h2⟩

/-- The first byte of a framed stream is that of a message. -/
theorem Framed.head {b : UInt8} {s : List UInt8} (h : Framed (b :: s)) :
    b = 0x11 ∨ b = 0x22 ∨ b = 0x33 ∨ b = 0x42 ∨ b = 0x52 := by
  obtain ⟨l, h1, u, h2⟩ := h
  cases l with
  | nil => cases h2
  | cons y l =>
    have := h1 y (List.mem_cons_self ..)
    rw [List.flatten_cons] at h2
    cases this <;> simp only [List.cons_append, List.nil_append, List.append_assoc, List.cons.injEq] at h2 <;> simp [h2.1]

/-- Only the one `INIT` message begins with its first byte. -/
theorem Framed.init {a b c : UInt8} {s : List UInt8} (h : Framed (0x11 :: a :: b :: c :: s)) : b = 1 := by
  obtain ⟨l, h1, u, h2⟩ := h
  cases l with
  | nil => cases h2
  | cons y l =>
    have := h1 y (List.mem_cons_self ..)
    rw [List.flatten_cons] at h2
    cases this <;> simp only [List.cons_append, List.nil_append, List.append_assoc, List.cons.injEq] at h2
    · exact h2.2.2.1
    all_goals exact absurd h2.1 (by decide)

/-! ## Histories -/

/-- The bytes `l` arrive. -/
def arrive (l : List UInt8) (e : Env := {}) : List Op := l.map (fun b => Op.recv b e)

/-- A client that opens its first channel with number 0; the other end answers with number 7. -/
def opening : List Op :=
  [.alloc 0 [], .opn 0, .writeReady [some 4, some 4]] ++ arrive [0x11, 0, 1, 0] ++ [.writeReady [some 3, some 100]]
    ++ [.writeReady [some 100]] ++ arrive [0x33, 0, 0, 0, 0, 0, 0, 132, 0, 7, 0, 0]

/-- A history that meets the guard: two messages in pieces, and an acknowledgement in between. -/
def tidy : List Op :=
  opening ++ [.write 0 [[0x61], [0x62]] true false, .writeReady [some 5]]
    ++ arrive ([0x52, 1, 0, 0, 0, 0, 0, 0, 0, 1, 0x63]) ++ [.write 0 [[0x64]] false true, .writeReady [some 7, some 9]]

example : Guarded (Mux.start true 132 32) tidy = true
    ∧ ((Mux.start true 132 32).run tidy).map Mux.out
      = some ([0x11, 0, 1, 0] ++ [0x22, 0, 0, 0, 0, 0, 0, 132, 0, 0] ++ [0x52, 1, 0, 7, 0, 0, 0, 0, 0, 2, 0x61, 0x62]
        ++ [0x52, 2, 0, 7, 0, 0, 0, 0, 0]) := by decide +kernel

/-- The second channel of `opening` is answered while a message of the first one is partly sent. -/
def answeredEarly : List Op :=
  opening ++ [.alloc 1 [], .opn 1, .writeReady [some 100], .write 0 [[0x61]] true false, .writeReady [some 10]]
    ++ arrive [0x33, 0, 0, 1, 0, 0, 0, 132, 0, 8, 0, 0] ++ [.write 1 [[0x62]] true false, .writeReady [some 100, some 100]]

/-- C34 does not hold: a `NEW_CHANNEL_RSP` that arrives while another channel has a message partly sent makes the mux
forget that message (`muxdata->sending_chan = NULL`, lib/gensio_mux.c:2391).  The next message is put into its middle, and
the first channel never sends again. -/
theorem C34_rsp_violated : ∃ m, (Mux.start true 132 32).run answeredEarly = some m ∧ ¬ Framed m.out
    ∧ ∀ c, m.chans[0]? = some c → c.wrReady = true ∧ 0 ∉ m.wrchans ∧ m.sending = none := by
  have h : (Mux.start true 132 32).run answeredEarly ≠ none
      ∧ ((Mux.start true 132 32).run answeredEarly).map Mux.out
        = some ([0x11, 0, 1, 0] ++ ([0x22, 0, 0, 0, 0, 0, 0, 132, 0, 0] ++ [] ++ ([0x22, 0, 0, 1, 0, 0, 0, 132, 0, 0] ++ []
          ++ ([0x52, 1, 0, 7, 0, 0, 0, 0, 0, 1] ++ [0x52] ++ [1, 0, 8, 0, 0, 0, 0, 0, 1, 0x62]))))
      ∧ ((Mux.start true 132 32).run answeredEarly).map (fun m => (m.chans[0]?.map Chan.wrReady, m.wrchans, m.sending))
        = some (some true, [], none) := by decide +kernel
  obtain ⟨h0, h1, h2⟩ := h
  cases hr : (Mux.start true 132 32).run answeredEarly with
  | none => exact absurd hr h0
  | some m =>
    rw [hr] at h1 h2
    have h1 := Option.some.inj h1
    have h2 := Option.some.inj h2
    simp only [Prod.mk.injEq] at h2
    refine ⟨m, rfl, fun hf => ?_, fun c hc => ?_⟩
    · rw [h1] at hf
      have hf := hf.tail .init
      have hf := hf.tail (.newChannel 0 0 0 0 0 132 0 0 [] rfl)
      have hf := hf.tail (.newChannel 0 1 0 0 0 132 0 0 [] rfl)
      have hf := hf.tail (.data 1 0 7 0 0 0 0 0 1 [0x52] rfl)
      exact absurd hf.head (by decide)
    · rw [hc] at h2
      exact ⟨Option.some.inj h2.1, by rw [h2.2.1]; simp, h2.2.2⟩

/-- A server gets `INIT` and `NEW_CHANNEL` while its own `INIT` is partly sent. -/
def initOverwritten : List Op :=
  [.alloc 0 [], .opn 0, .writeReady [some 2]] ++ arrive [0x11, 0, 1, 0] ++ arrive [0x22, 0, 0, 0, 0, 0, 0, 132, 0, 0]
    ++ [.writeReady [some 100, some 100]]

/-- C34 does not hold: the answer to the first `NEW_CHANNEL` overwrites an `INIT` message that is partly sent
(lib/gensio_mux.c:2591-2593 without the test of `xmit_data_len` of :2606). -/
theorem C34_init_violated : ∃ m, (Mux.start false 132 32).run initOverwritten = some m ∧ ¬ Framed m.out := by
  have h : ((Mux.start false 132 32).run initOverwritten).map Mux.out
      = some [0x11, 0, 0x33, 0, 0, 0, 0, 0, 0, 132, 0, 0, 0, 0] := by decide +kernel
  cases hr : (Mux.start false 132 32).run initOverwritten with
  | none => rw [hr] at h; cases h
  | some m =>
    rw [hr] at h
    have h := Option.some.inj h
    refine ⟨m, rfl, fun hf => ?_⟩
    rw [h] at hf
    exact absurd hf.init (by decide)

/-- The other end closes the channel whose message is partly sent. -/
def closedWhileSending : List Op :=
  opening ++ [.write 0 [[0x61, 0x62]] true false, .writeReady [some 10]] ++ arrive [0x42, 0, 0, 0, 0, 0, 0, 0]

/-- C34 does not hold: a `CLOSE_CHANNEL` for a channel that has a message partly sent sets the count of buffered bytes to 0
(lib/gensio_mux.c:2463); when the message is finished its length is subtracted (:2098), the count wraps around, and the
next send fails an assertion: the other end can stop the program. -/
theorem C34_close_violated : ∃ m, (Mux.start true 132 32).run closedWhileSending = some m
    ∧ (m.writeReady [some 2]).isNone = true := by
  have h : ((Mux.start true 132 32).run closedWhileSending).isSome = true
      ∧ (((Mux.start true 132 32).run closedWhileSending).bind (fun m => m.writeReady [some 2])) = none := by
    have : ((Mux.start true 132 32).run closedWhileSending).isSome = true
      ∧ (((Mux.start true 132 32).run closedWhileSending).bind (fun m => m.writeReady [some 2])).isNone = true := by
      decide +kernel
    exact ⟨this.1, by simpa using this.2⟩
  cases hr : (Mux.start true 132 32).run closedWhileSending with
  | none => rw [hr] at h; exact absurd h.1 (by decide)
  | some m =>
    rw [hr] at h
    exact ⟨m, rfl, by have := h.2; simp only [Option.bind_some] at this; rw [this]; rfl⟩

end Gensio.Mux
