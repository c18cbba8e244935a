import Verif.Model.Telnet
import Verif.Lemmas.Mem
/-! Helper lemmas for the telnet receive machine. -/
namespace Gensio.Telnet

/-- The buffer facts that keep every access inside. -/
def Safe (r : Rx) : Prop := r.cmd.length = 32 ∧ r.pos ≤ 32

theorem push_some {r : Rx} (b : UInt8) (h : r.cmd.length = 32) (hp : r.pos ≤ 31) :
    r.push b = some { r with cmd := r.cmd.take r.pos ++ [b] ++ r.cmd.drop (r.pos + 1), pos := r.pos + 1 } := by
  have : r.pos + [b].length ≤ r.cmd.length := by simp; omega
  simp only [Rx.push, Mem.write, this, if_true]; rfl

theorem push_safe {r : Rx} (b : UInt8) (h : r.cmd.length = 32) (hp : r.pos ≤ 31) :
    ∃ r', r.push b = some r' ∧ r'.cmd.length = 32 ∧ r'.pos = r.pos + 1 ∧ r'.subIac = r.subIac := by
  refine ⟨_, push_some b h hp, ?_, rfl, rfl⟩
  simp; omega

theorem finish_some {r : Rx} (h : Safe r) :
    r.finish = some { rx := { r with pos := 0 }, cmd := some (r.cmd.take r.pos) } := by
  have : 0 + r.pos ≤ r.cmd.length := by have := h.1; have := h.2; omega
  simp only [Rx.finish, Mem.read, this, if_true]; simp

theorem rxByte_safe {r : Rx} (b : UInt8) (h : Safe r) :
    ∃ o, rxByte r b = some o ∧ Safe o.rx ∧ o.data.length ≤ 1 ∧
      (∀ c, o.cmd = some c → c.length ≤ 32) := by
  obtain ⟨h1, h2⟩ := h
  unfold rxByte
  split
  · split
    · exact ⟨_, rfl, ⟨h1, by simp⟩, by simp, by simp⟩
    split
    · rename_i hp
      obtain ⟨r', e, a, b', c⟩ := push_safe b h1 (by omega)
      have hs : Safe r' := ⟨a, by omega⟩
      simp only [e, Option.bind_eq_bind, Option.bind_some]
      split
      · rw [finish_some hs]
        exact ⟨_, rfl, ⟨a, by simp⟩, by simp, by intro c hc; simp at hc; subst hc; simp; omega⟩
      · exact ⟨_, rfl, hs, by simp, by simp⟩
    split
    · rename_i hp
      obtain ⟨r', e, a, b', c⟩ := push_safe b h1 (by omega)
      have hs : Safe r' := ⟨a, by omega⟩
      simp only [e, Option.bind_eq_bind, Option.bind_some]
      have hr : r'.cmd.read 1 1 = some ((r'.cmd.drop 1).take 1) := by
        rw [Mem.read, if_pos (by omega)]
      simp only [hr, Option.bind_some]
      split
      · exact ⟨_, rfl, ⟨a, by simp⟩, by simp, by simp⟩
      split
      · rw [finish_some hs]
        exact ⟨_, rfl, ⟨a, by simp⟩, by simp, by intro c hc; simp at hc; subst hc; simp; omega⟩
      · exact ⟨_, rfl, hs, by simp, by simp⟩
    split
    · split
      · have hs : Safe { r with pos := r.pos - 1 } := ⟨h1, by simp only; omega⟩
        simp only [finish_some hs, Option.bind_eq_bind, Option.bind_some]
        exact ⟨_, rfl, ⟨h1, by simp⟩, by simp, by intro c hc; simp at hc; subst hc; simp; omega⟩
      split
      · exact ⟨_, rfl, ⟨h1, h2⟩, by simp, by simp⟩
      · exact ⟨_, rfl, ⟨h1, by simp only; omega⟩, by simp, by simp⟩
    · split
      · obtain ⟨r', e, a, b', c⟩ := push_safe (r := { r with pos := maxCmd }) b h1 (by simp)
        simp only at b'
        simp only [e, Option.bind_eq_bind, Option.bind_some]
        refine ⟨_, rfl, ?_, by simp, by simp⟩
        split
        · exact ⟨a, by simp only; omega⟩
        · exact ⟨a, by simp only [maxCmd] at *; omega⟩
      · obtain ⟨r', e, a, b', c⟩ := push_safe b h1 (by simp only [maxCmd] at *; omega)
        simp only [e, Option.bind_eq_bind, Option.bind_some]
        refine ⟨_, rfl, ?_, by simp, by simp⟩
        split
        · exact ⟨a, by simp only [maxCmd] at *; omega⟩
        · exact ⟨a, by simp only [maxCmd] at *; omega⟩
  · rename_i hp
    have hp : r.pos = 0 := by omega
    split
    · obtain ⟨r', e, a, b', c⟩ := push_safe IAC h1 (by omega)
      simp only [e, Option.bind_eq_bind, Option.bind_some]
      exact ⟨_, rfl, ⟨a, by simp only; omega⟩, by simp, by simp⟩
    · exact ⟨_, rfl, ⟨h1, h2⟩, by simp, by simp⟩

/-- The machine run over a byte string. -/
def rxAll (r : Rx) : List UInt8 → Option (Rx × List UInt8 × List (List UInt8))
  | [] => some (r, [], [])
  | b :: bs => do
    let o ← rxByte r b
    let (r', d, c) ← rxAll o.rx bs
    some (r', o.data ++ d, o.cmd.toList ++ c)

theorem rxAll_safe (bs : List UInt8) : ∀ r, Safe r →
    ∃ r' d c, rxAll r bs = some (r', d, c) ∧ Safe r' ∧ ∀ x ∈ c, x.length ≤ 32 := by
  induction bs with
  | nil => intro r h; exact ⟨r, [], [], rfl, h, by simp⟩
  | cons b bs ih =>
    intro r h
    obtain ⟨o, e, hs, _, hc⟩ := rxByte_safe b h
    obtain ⟨r', d, c, e', hs', hc'⟩ := ih o.rx hs
    refine ⟨r', o.data ++ d, o.cmd.toList ++ c, by simp [rxAll, e, e'], hs', ?_⟩
    intro x hx
    simp only [List.mem_append, Option.mem_toList] at hx
    rcases hx with hx | hx
    · exact hc x hx
    · exact hc' x hx

theorem rxAll_append (a : List UInt8) : ∀ (b : List UInt8) (r : Rx),
    rxAll r (a ++ b) = (do
      let (r1, d1, c1) ← rxAll r a
      let (r2, d2, c2) ← rxAll r1 b
      some (r2, d1 ++ d2, c1 ++ c2)) := by
  induction a with
  | nil =>
    intro b r
    simp only [List.nil_append, rxAll, Option.bind_eq_bind, Option.bind_some]
    cases rxAll r b <;> simp
  | cons x a ih =>
    intro b r
    simp only [List.cons_append, rxAll, ih]
    cases rxByte r x with
    | none => simp
    | some o =>
      simp only [Option.bind_eq_bind, Option.bind_some]
      cases rxAll o.rx a with
      | none => simp
      | some p =>
        simp only [Option.bind_some]
        cases rxAll p.1 b <;> simp [List.append_assoc]

/-- One call is the machine run over the bytes it used. -/
theorem processData_spec (inp : List UInt8) : ∀ (r : Rx) (outlen : Nat), Safe r →
    ∃ q, processData r outlen inp = some q ∧ q.used ≤ inp.length ∧ q.out.length ≤ outlen ∧
      Safe q.rx ∧ rxAll r (inp.take q.used) = some (q.rx, q.out, q.cmds) ∧
      (inp ≠ [] → 0 < outlen → 0 < q.used) := by
  induction inp with
  | nil =>
    intro r outlen h
    exact ⟨_, rfl, by simp, by simp, h, rfl, by simp⟩
  | cons b inp ih =>
    intro r outlen h
    unfold processData
    split
    · exact ⟨_, rfl, by simp, by simp, h, rfl, by omega⟩
    · rename_i ho
      obtain ⟨o, e, hs, hd, _⟩ := rxByte_safe b h
      simp only [e, Option.bind_eq_bind, Option.bind_some]
      cases hc : o.cmd with
      | some c =>
        refine ⟨_, rfl, by simp, by simp only; omega, hs, ?_, by simp⟩
        simp [rxAll, e, hc]
      | none =>
        obtain ⟨q, e', h1, h2, h3, h4, h5⟩ := ih o.rx (outlen - o.data.length) hs
        refine ⟨⟨q.rx, o.data ++ q.out, q.used + 1, q.cmds⟩, by simp [e'], by simp; omega,
          by simp; omega, h3, ?_, by simp⟩
        simp [rxAll, e, h4, hc]

/-- A whole schedule of calls is the machine run over the bytes used. -/
theorem feed_spec (sched : List (Nat × Nat)) : ∀ (r : Rx) (stream : List UInt8), Safe r →
    ∃ q rest, feed r stream sched = some (q, rest) ∧ Safe q.rx ∧ q.used ≤ stream.length ∧
      rest = stream.drop q.used ∧
      rxAll r (stream.take q.used) = some (q.rx, q.out, q.cmds) := by
  induction sched with
  | nil => intro r stream h; exact ⟨_, _, rfl, h, by simp, by simp, by simp [rxAll]⟩
  | cons s sched ih =>
    intro r stream h
    obtain ⟨n, outlen⟩ := s
    obtain ⟨a, e, h1, h2, h3, h4, _⟩ := processData_spec (stream.take n) r outlen h
    obtain ⟨q, rest, e', g1, g2, g3, g4⟩ := ih a.rx (stream.drop a.used) h3
    have hlen : a.used ≤ n ∧ a.used ≤ stream.length := by simp at h1; omega
    refine ⟨⟨q.rx, a.out ++ q.out, a.used + q.used, a.cmds ++ q.cmds⟩, rest, by simp [feed, e, e'],
      g1, ?_, ?_, ?_⟩
    · simp at g2 ⊢; omega
    · rw [g3, List.drop_drop]
    · rw [List.take_take, Nat.min_eq_left hlen.1] at h4
      rw [List.take_add, rxAll_append, h4]
      simp [g4]

end Gensio.Telnet
