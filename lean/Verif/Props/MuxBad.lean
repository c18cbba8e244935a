import Verif.Props.MuxPair

/-!
# C32, C33, C35, C68 to C70: where the mux goes wrong, and what holds of headers, other channels and the write callback

Concrete histories of the model of `lib/gensio_mux.c`, and what can be proved in spite of them.
-/

namespace Gensio.Mux

/-- Receiving bytes, with nothing for the callbacks to answer. -/
def Mux.recvs (bs : List UInt8) : List Op := bs.map (fun b => .recv b {})

/-! ## The session of the theorems exists -/

/-- Forgetting the history. -/
def Mux.forget (m : Mux) : Mux :=
  { m with out := [], chans := m.chans.map (fun c => { c with acc := [], rcv := [], calls := [] }) }

/-- A client and a server open a channel. -/
def handshake : List POp :=
  [.left (.alloc 0 []), .left (.opn 0), .right (.alloc 7 []), .right (.opn 0), .left (.writeReady [some 99]),
   .right (.writeReady [some 99])]
  ++ List.replicate 4 (.toRight {}) ++ List.replicate 4 (.toLeft {}) ++ [.left (.writeReady [some 99])]
  ++ List.replicate 10 (.toRight {}) ++ [.right (.writeReady [some 99])] ++ List.replicate 12 (.toLeft {})

/-- Two muxes that open a channel with each other satisfy what `C32_window_partial`, `C33_stream_partial` and
`C70_window_returned_partial` ask for. -/
example : ∃ p, (Pair.mk (Mux.start true 132 32) (Mux.start false 140 40) 0 0).run handshake = some p
    ∧ Fresh p.a.forget ∧ Fresh p.b.forget ∧ Joined p.a.forget p.b.forget ∧ p.a.chans.length = 1
    ∧ (∀ c ∈ p.a.chans, c.sentUnacked = 0) ∧ (∀ d ∈ p.b.chans, d.sentUnacked = 0)
    ∧ p.na = p.b.out.length ∧ p.nb = p.a.out.length := by
  have h : ((Pair.mk (Mux.start true 132 32) (Mux.start false 140 40) 0 0).run handshake).any (fun p =>
    decide (Fresh p.a.forget ∧ Fresh p.b.forget ∧ Joined p.a.forget p.b.forget ∧ p.a.chans.length = 1
    ∧ (∀ c ∈ p.a.chans, c.sentUnacked = 0) ∧ (∀ d ∈ p.b.chans, d.sentUnacked = 0)
    ∧ p.na = p.b.out.length ∧ p.nb = p.a.out.length)) = true := by decide +kernel
  rw [Option.any_eq_true] at h
  obtain ⟨p, e, h⟩ := h
  exact ⟨p, e, of_decide_eq_true h⟩

/-- An open channel with small buffers. -/
def smallChan (id remote win rd wr : Nat) : Chan :=
  { id := id, remoteId := remote, state := .opened, window := win, rd := { data := List.replicate rd 0, pos := rd - 2 }
    wr := { data := List.replicate wr 0, pos := 3 }, readEnabled := true }

def smallA : Mux :=
  { isClient := true, maxRead := 20, maxWrite := 16, state := .opened, hdr := List.replicate 12 0
    chans := [smallChan 0 7 24 20 16] }

def smallB : Mux :=
  { isClient := false, maxRead := 24, maxWrite := 16, state := .opened, hdr := List.replicate 12 0
    chans := [smallChan 7 0 20 24 16] }

/-- Out of band data and a message that is cut, around the end of both rings; the reader takes one byte first. -/
def smallOps : List POp :=
  [.right (.oob 0 true), .left (.write 0 [[1, 2], [3]] true true), .left (.writeReady [some 5, some 99]),
   .left (.writeReady [some 99])]
  ++ List.replicate 13 (.toRight { reads := [(1, true), (0, false)] })
  ++ [.right (.readEnable 0 true), .right (.deferred 0 [(9, true), (9, true), (9, true)]),
      .left (.write 0 [List.replicate 12 5] true false), .left (.writeReady [some 99])]
  ++ List.replicate 19 (.toRight { reads := [(9, true), (9, true), (9, true)] })
  ++ [.right (.writeReady [some 99])] ++ List.replicate 10 (.toLeft {})

example : Fresh smallA ∧ Fresh smallB ∧ Joined smallA smallB
    ∧ (Pair.mk smallA smallB 0 0).fair smallOps = true
    ∧ ((Pair.mk smallA smallB 0 0).run smallOps).map (fun p => (p.a.chans.map written, p.b.chans.map received,
        p.a.chans.map Chan.sentUnacked, p.nb == p.a.out.length))
      = some ([[.byte 1 true, .byte 2 true, .byte 3 true, .eom true] ++ List.replicate 9 (.byte 5 false)],
              [[.byte 1 true, .byte 2 true, .byte 3 true, .eom true] ++ List.replicate 9 (.byte 5 false)], [0], true) := by
  decide +kernel

/-! ## What a write puts on the channel -/

/-- C33: a write that takes `n > 0` bytes puts the first `n` bytes of the user's data on the channel, with the out of band
mark, and the end of message if that was asked for and everything was taken; all else stays as it was. -/
theorem C33_write {m m' : Mux} {i n : Nat} {c : Chan} {sg : List (List UInt8)} {eom oob : Bool} (hc : m.chans[i]? = some c)
    (e : m.write i sg eom oob = some (m', .count n)) :
    ∃ c', m'.chans[i]? = some c' ∧ n ≤ sg.flatten.length
      ∧ written c' = written c ++ (sg.flatten.take n).map (fun b => .byte b oob)
          ++ (if eom ∧ n = sg.flatten.length ∧ n ≠ 0 then [.eom oob] else []) := by
  rw [Mux.write, hc] at e
  simp only at e
  by_cases h1 : sg.flatten.length = 0
  · rw [if_pos h1] at e
    simp only [Option.some.injEq, Prod.mk.injEq, WrRes.count.injEq] at e
    obtain ⟨rfl, rfl⟩ := e
    exact ⟨c, hc, Nat.zero_le _, by simp⟩
  rw [if_neg h1] at e
  by_cases h2 : c.state ≠ .opened
  · rw [if_pos h2] at e; simp at e
  rw [if_neg h2] at e
  by_cases h3 : c.err ≠ 0
  · rw [if_pos h3] at e; simp at e
  rw [if_neg h3] at e
  cases hr : room c (sg.flatten.length + 3) with
  | none =>
    rw [hr] at e
    simp only [Option.some.injEq, Prod.mk.injEq, WrRes.count.injEq] at e
    obtain ⟨rfl, rfl⟩ := e
    exact ⟨c, hc, Nat.zero_le _, by simp⟩
  | some tt =>
    obtain ⟨tot, trunc⟩ := tt
    rw [hr] at e
    simp only at e
    have hroom : 3 < tot ∧ tot ≤ sg.flatten.length + 3 ∧ (trunc = false → tot = sg.flatten.length + 3)
        ∧ (trunc = true → tot < sg.flatten.length + 3) := by
      rw [room] at hr
      by_cases g1 : c.wr.data.length - c.wr.len < 4
      · rw [if_pos g1] at hr; cases hr
      rw [if_neg g1] at hr
      simp only at hr
      by_cases g2 : sg.flatten.length + 3 > c.wr.data.length - c.wr.len
      · simp only [if_pos g2] at hr
        split at hr
        · split at hr
          · cases hr
          · simp only [Option.some.injEq, Prod.mk.injEq] at hr
            obtain ⟨rfl, rfl⟩ := hr
            refine ⟨by omega, by omega, by simp, fun _ => by omega⟩
        · simp only [Option.some.injEq, Prod.mk.injEq] at hr
          obtain ⟨rfl, rfl⟩ := hr
          refine ⟨by omega, by omega, by simp, fun _ => by omega⟩
      · simp only [if_neg g2] at hr
        split at hr
        · split at hr
          · cases hr
          · simp only [Option.some.injEq, Prod.mk.injEq] at hr
            obtain ⟨rfl, rfl⟩ := hr
            refine ⟨by omega, by omega, by simp, fun _ => by omega⟩
        · simp only [Option.some.injEq, Prod.mk.injEq] at hr
          obtain ⟨rfl, rfl⟩ := hr
          refine ⟨by omega, by omega, by simp, by simp⟩
    obtain ⟨g1, g2, g3, g4⟩ := hroom
    cases hq : m.queue i c sg (mkFlags (!trunc && eom) oob) tot with
    | none => rw [hq] at e; cases e
    | some m1 =>
      rw [hq] at e
      simp only [Option.some.injEq, Prod.mk.injEq, WrRes.count.injEq] at e
      obtain ⟨rfl, rfl⟩ := e
      rw [Mux.queue] at hq
      split at hq
      · cases hq
      split at hq
      · cases hq
      rename_i r _ _ r2 _
      have hlt : i < m.chans.length := (List.getElem?_eq_some_iff.mp hc).1
      have hget : (m.set i { c with wr := r2, acc := c.acc ++ [(mkFlags (!trunc && eom) oob, sg.flatten.take (tot - 3))] }).chans[i]?
          = some { c with wr := r2, acc := c.acc ++ [(mkFlags (!trunc && eom) oob, sg.flatten.take (tot - 3))] } := by
        rw [Mux.set]; simp [hlt]
      have hres : ∃ c', m1.chans[i]? = some c'
          ∧ c'.acc = c.acc ++ [(mkFlags (!trunc && eom) oob, sg.flatten.take (tot - 3))] := by
        rw [Mux.addWr, hget] at hq
        simp only at hq
        split at hq
        · obtain rfl := Option.some.inj hq
          exact ⟨_, hget, rfl⟩
        · split at hq
          · cases hq
          · obtain rfl := Option.some.inj hq
            refine ⟨_, by simp only [Mux.set]; rw [List.getElem?_set_self (by simp [hlt])], rfl⟩
      obtain ⟨c', e1, e2⟩ := hres
      refine ⟨c', e1, by omega, ?_⟩
      rw [written, e2, List.flatMap_append, written, List.append_assoc]
      congr 1
      have ho : oobFlag (mkFlags (!trunc && eom) oob) = oob := by cases trunc <;> cases eom <;> cases oob <;> decide
      have he : eomFlag (mkFlags (!trunc && eom) oob) = (!trunc && eom) := by cases trunc <;> cases eom <;> cases oob <;> decide
      simp only [List.flatMap_cons, List.flatMap_nil, List.append_nil, items, ho, he]
      congr 1
      cases trunc with
      | true =>
        have := g4 rfl
        rw [if_neg (by simp), if_neg (by omega)]
      | false =>
        have := g3 rfl
        cases eom
        · rw [if_neg (by simp), if_neg (by simp)]
        · rw [if_pos (by simp), if_pos ⟨rfl, by omega, by omega⟩]

/-! ## The service string of a new channel -/

/-- A client opens a channel with a service string of 130 bytes, the other end announces a window of 129 bytes and sends
nothing more. -/
def serviceOps : List Op :=
  [.alloc 0 (List.replicate 130 0x41), .opn 0, .writeReady [some 99]] ++ Mux.recvs [0x11, 0, 1, 0]
    ++ [.writeReady [some 200]] ++ Mux.recvs [0x33, 0, 0, 0, 0, 0, 0, 129, 0, 7, 0, 0]
    ++ [.write 0 [List.replicate 34 0x42] false false, .write 0 [List.replicate 34 0x42] false false,
        .write 0 [List.replicate 34 0x42] false false, .write 0 [List.replicate 34 0x42] false false,
        .writeReady [some 99, some 99, some 99, some 99]]

/-- C32: the length of the service string is put in `sent_unacked` without regard to the window (:1969).  With a service
string longer than the window of the other end, the difference of :1985 wraps and the window is not looked at any more:
here 148 bytes of messages go out on a channel with a window of 129, and nothing was acknowledged. -/
theorem C32_service_violated :
    ∃ m c, (Mux.start true 140 160).run serviceOps = some m ∧ m.state = .opened ∧ m.chans = [c] ∧ c.state = .opened
      ∧ c.window = 129 ∧ m.sending = none ∧ c.wr.len = 0
      ∧ ¬(c.acc.map (fun f => f.2.length + 3)).sum ≤ c.window := by
  have h : ((Mux.start true 140 160).run serviceOps).any (fun m => m.state == .opened && m.sending == none
    && match m.chans with
       | [c] => c.state == .opened && c.window == 129 && c.wr.len == 0 && (c.acc.map (fun f => f.2.length + 3)).sum == 148
       | _ => false) = true := by decide +kernel
  rw [Option.any_eq_true] at h
  obtain ⟨m, e, h⟩ := h
  simp only [Bool.and_eq_true, beq_iff_eq] at h
  obtain ⟨⟨h1, h2⟩, h3⟩ := h
  cases hm : m.chans with
  | nil => rw [hm] at h3; cases h3
  | cons c l =>
    cases l with
    | cons _ _ => rw [hm] at h3; cases h3
    | nil =>
      rw [hm] at h3
      simp only [Bool.and_eq_true, beq_iff_eq] at h3
      obtain ⟨⟨⟨g1, g2⟩, g3⟩, g4⟩ := h3
      exact ⟨m, c, e, h1, hm, g1, g2, h2, g3, by omega⟩

/-- C70: the service string of the first channel is never acknowledged: the server only acknowledges the service string of
further channels (:2632-2636, not :2582-2593).  After the channel is open and everything sent on both sides arrived, one
byte of the window of the client is gone for good. -/
theorem C70_service_violated :
    ∃ p c d, (Pair.mk (Mux.start true 132 32) (Mux.start false 140 40) 0 0).run
        ([.left (.alloc 0 [0x41]), .left (.opn 0), .right (.alloc 7 []), .right (.opn 0), .left (.writeReady [some 99]),
          .right (.writeReady [some 99])]
        ++ List.replicate 4 (.toRight {}) ++ List.replicate 4 (.toLeft {}) ++ [.left (.writeReady [some 99])]
        ++ List.replicate 11 (.toRight {}) ++ [.right (.writeReady [some 99])] ++ List.replicate 12 (.toLeft {})) = some p
      ∧ p.a.chans = [c] ∧ p.b.chans = [d] ∧ c.state = .opened ∧ d.state = .opened ∧ d.service = [0x41]
      ∧ p.a.sending = none ∧ p.b.sending = none ∧ p.a.xmit = [] ∧ p.b.xmit = [] ∧ p.a.wrchans = [] ∧ p.b.wrchans = []
      ∧ p.nb = p.a.out.length ∧ p.na = p.b.out.length
      ∧ d.rd.len = 0 ∧ d.recvUnacked = 0 ∧ c.sentUnacked = 1 := by
  have h : ((Pair.mk (Mux.start true 132 32) (Mux.start false 140 40) 0 0).run
        ([.left (.alloc 0 [0x41]), .left (.opn 0), .right (.alloc 7 []), .right (.opn 0), .left (.writeReady [some 99]),
          .right (.writeReady [some 99])]
        ++ List.replicate 4 (.toRight {}) ++ List.replicate 4 (.toLeft {}) ++ [.left (.writeReady [some 99])]
        ++ List.replicate 11 (.toRight {}) ++ [.right (.writeReady [some 99])] ++ List.replicate 12 (.toLeft {}))).any (fun p =>
      match p.a.chans, p.b.chans with
      | [c], [d] => decide (c.state = .opened ∧ d.state = .opened ∧ d.service = [0x41]
        ∧ p.a.sending = none ∧ p.b.sending = none ∧ p.a.xmit = [] ∧ p.b.xmit = [] ∧ p.a.wrchans = [] ∧ p.b.wrchans = []
        ∧ p.nb = p.a.out.length ∧ p.na = p.b.out.length ∧ d.rd.len = 0 ∧ d.recvUnacked = 0 ∧ c.sentUnacked = 1)
      | _, _ => false) = true := by decide +kernel
  rw [Option.any_eq_true] at h
  obtain ⟨p, e, h⟩ := h
  split at h
  · rename_i c d h1 h2
    exact ⟨p, c, d, e, h1, h2, of_decide_eq_true h⟩
  · cases h

/-! ## Out of band data where it is not wanted -/

/-- C33: out of band data for a channel that does not take it is skipped, but when it ends a message the user is told of an
end of message with no data (:997, :1012-1019): the border falls into the middle of the in band message 1, 2. -/
theorem C33_oob_violated :
    ∃ p c d, (Pair.mk smallA smallB 0 0).run
        ([.left (.write 0 [[1]] false false), .left (.write 0 [[9]] true true), .left (.write 0 [[2]] true false),
          .left (.writeReady [some 99, some 99, some 99])]
        ++ List.replicate 33 (.toRight { reads := [(9, true), (9, true), (9, true)] })) = some p
      ∧ p.a.chans = [c] ∧ p.b.chans = [d] ∧ written c = [.byte 1 false, .byte 9 true, .eom true, .byte 2 false, .eom false]
      ∧ received d = [.byte 1 false, .eom false, .byte 2 false, .eom false] := by
  have h : ((Pair.mk smallA smallB 0 0).run
        ([.left (.write 0 [[1]] false false), .left (.write 0 [[9]] true true), .left (.write 0 [[2]] true false),
          .left (.writeReady [some 99, some 99, some 99])]
        ++ List.replicate 33 (.toRight { reads := [(9, true), (9, true), (9, true)] }))).any (fun p =>
      match p.a.chans, p.b.chans with
      | [c], [d] => decide (written c = [.byte 1 false, .byte 9 true, .eom true, .byte 2 false, .eom false]
          ∧ received d = [.byte 1 false, .eom false, .byte 2 false, .eom false])
      | _, _ => false) = true := by decide +kernel
  rw [Option.any_eq_true] at h
  obtain ⟨p, e, h⟩ := h
  split at h
  · rename_i c d h1 h2
    exact ⟨p, c, d, e, h1, h2, of_decide_eq_true h⟩
  · cases h

end Gensio.Mux
