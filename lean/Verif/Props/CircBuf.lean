import Verif.Model.CircBuf
import Verif.Lemmas.CircBuf
/-!
# C01, C02: the circular buffer is a bounded FIFO

The specification is a plain list of bytes of bounded length, it knows nothing about
positions or wrapping.
-/
namespace Gensio.CircBuf

/-- Bounded FIFO of capacity `cap`: `Fifo cap q op obs q'` says that a queue holding `q`
may answer operation `op` with observation `obs` and then hold `q'`. -/
def Fifo (cap : Nat) (q : List UInt8) (op : Op) (obs : Obs) (q' : List UInt8) : Prop :=
  obs.room + obs.len = cap ∧ obs.len = q'.length ∧
  match op with
  | .sgWrite sg =>            -- accepts as much as fits, from the front of the data
    obs.data = [] ∧ obs.count = min sg.flatten.length (cap - q.length) ∧
    q' = q ++ sg.flatten.take obs.count
  | .read dst n =>            -- returns the oldest bytes, as many as asked for or present
    obs.count = min n q.length ∧ q' = q.drop obs.count ∧
    obs.data = if dst then q.take obs.count else []
  | .zwrite d =>              -- accepts a front part, not nothing unless empty or full
    obs.data = [] ∧ obs.count ≤ d.length ∧ obs.count ≤ cap - q.length ∧
    (d ≠ [] → q.length < cap → 0 < obs.count) ∧ q' = q ++ d.take obs.count
  | .zread n =>               -- returns a front part, not nothing unless n = 0 or empty
    obs.count ≤ n ∧ (0 < n → q ≠ [] → 0 < obs.count) ∧ obs.data = q.take obs.count ∧
    obs.count = obs.data.length ∧ q' = q.drop obs.count
  | .reset => obs.data = [] ∧ q' = []

/-- A whole history of the bounded FIFO. -/
def FifoTrace (cap : Nat) : List UInt8 → List Op → List Obs → List UInt8 → Prop
  | q, [], [], q' => q' = q
  | q, op :: ops, o :: os, q' => ∃ q1, Fifo cap q op o q1 ∧ FifoTrace cap q1 ops os q'
  | _, _, _, _ => False

private theorem step_refines {c : CB} {q : List UInt8} (h : Rep c q) (op : Op) :
    ∃ c' o q', step c op = some (c', o) ∧ Fifo c.bufsize q op o q' ∧ Rep c' q' ∧
      c'.bufsize = c.bufsize := by
  have hl := h.len
  have hs := h.size_le
  cases op with
  | sgWrite sg =>
    obtain ⟨c', e, r, b⟩ := sgWrite_spec sg h 0
    refine ⟨c', _, _, by simp only [step, e]; rfl, ⟨?_, ?_, rfl, ?_, ?_⟩, r, b⟩
    · have := r.size_le; simp [roomLeft, datalen]; omega
    · simp only [datalen]; exact r.len.symm
    · simp only; omega
    · simp only [Nat.zero_add]
      rw [Nat.min_comm, ← hl, ← List.take_eq_take_min]
  | read dst n =>
    obtain ⟨c', e, r, b⟩ := readLoop_spec (n + 1) h n [] 0 (by omega)
    refine ⟨c', _, _, by simp only [step, read, e]; rfl, ⟨?_, ?_, ?_, ?_, ?_⟩, r, b⟩
    · have := r.size_le; simp [roomLeft, datalen]; omega
    · simp only [datalen]; exact r.len.symm
    · simp
    · simp [List.drop_eq_drop_min]
    · simp [List.take_eq_take_min]
  | zwrite d =>
    obtain ⟨off, sz, e, ho, h1, h2, h3⟩ := nextWriteArea_spec h
    obtain ⟨m, c', hw, hd, hr, hb, hsz⟩ := put_spec h e (d.take sz) (by simp; omega)
    refine ⟨c', _, _, by simp only [step, e, hw, hd, Option.bind_eq_bind, Option.bind_some]; rfl,
      ⟨?_, ?_, rfl, ?_, ?_, ?_, ?_⟩, hr, hb⟩
    · have := hr.size_le; simp [roomLeft, datalen]; omega
    · simp only [datalen]; exact hr.len.symm
    · simp; omega
    · simp; omega
    · intro hne hlt
      have : 0 < d.length := List.length_pos_iff.mpr hne
      have := h3 (by omega)
      simp; omega
    · simp [List.take_eq_take_min]
  | zread n =>
    obtain ⟨sz, e, h1, h2, h3⟩ := nextReadArea_spec h
    obtain ⟨c', hrd, hd, hr, hb, hsz⟩ := get_spec h e (min n sz) (by omega)
    refine ⟨c', _, _, by simp only [step, e, hrd, hd, Option.bind_eq_bind, Option.bind_some]; rfl,
      ⟨?_, ?_, ?_, ?_, rfl, ?_, rfl⟩, hr, hb⟩
    · have := hr.size_le; simp [roomLeft, datalen]; omega
    · simp only [datalen]; exact hr.len.symm
    · simp; omega
    · intro hn hne
      have : 0 < q.length := List.length_pos_iff.mpr hne
      have := h3 (by omega)
      simp; omega
    · simp; omega
  | reset =>
    refine ⟨reset c, _, [], rfl, ⟨?_, ?_, rfl, rfl⟩, rep_reset h, rfl⟩
    · simp [roomLeft, datalen, reset]
    · simp [datalen, reset]

private theorem run_refines (ops : List Op) : ∀ {c : CB} {q : List UInt8} (_ : Rep c q),
    ∃ c' os q', run c ops = some (c', os) ∧ FifoTrace c.bufsize q ops os q' ∧ Rep c' q' ∧
      c'.bufsize = c.bufsize := by
  induction ops with
  | nil => intro c q h; exact ⟨c, [], q, rfl, rfl, h, rfl⟩
  | cons op ops ih =>
    intro c q h
    obtain ⟨c1, o, q1, e1, s1, r1, b1⟩ := step_refines h op
    obtain ⟨c2, os, q2, e2, s2, r2, b2⟩ := ih r1
    refine ⟨c2, o :: os, q2, by simp [run, e1, e2], ⟨q1, s1, by rw [← b1]; exact s2⟩, r2, by omega⟩

/-- **C01.**  Any history of operations on a freshly allocated circular buffer of
capacity `cap > 0` runs without undefined behaviour, assertion failure or endless loop,
and everything the user observes is what a bounded FIFO of that capacity would show. -/
theorem C01_circbuf_fifo (cap : Nat) (hcap : 0 < cap) (ops : List Op) :
    ∃ c' os q', run (alloc cap) ops = some (c', os) ∧ FifoTrace cap [] ops os q' := by
  obtain ⟨c', os, q', e, t, -, -⟩ := run_refines ops (rep_alloc hcap)
  exact ⟨c', os, q', e, t⟩

/-- A history with a wrap of the buffer, a split scatter list and a partial discard. -/
example : (run (alloc 4) [.sgWrite [[1, 2], [3]], .read true 2, .sgWrite [[4], [5, 6, 7]],
      .read false 1, .zread 9, .zwrite [8, 9], .read true 10]).map (·.2.map fun o => (o.data, o.count))
    = some [([], 3), ([1, 2], 2), ([], 3), ([], 1), ([4], 1), ([], 2), ([5, 6, 8, 9], 4)] := by
  decide

/-- **C02.**  In every state reachable by any history from a fresh buffer of capacity
`cap > 0`: the zero-copy areas lie inside the allocated memory and are as large as
promised, free room plus stored length is the capacity, and a scatter/gather write
reports exactly `min(requested, room)` and stores that many bytes. -/
theorem C02_circbuf_bounds (cap : Nat) (hcap : 0 < cap) (ops : List Op) (c : CB)
    (os : List Obs) (hrun : run (alloc cap) ops = some (c, os)) :
    c.cbuf.length = cap ∧ roomLeft c + datalen c = cap ∧
    (∃ off sz, nextWriteArea c = some (off, sz) ∧ off + sz ≤ cap ∧ sz ≤ roomLeft c ∧
      (0 < roomLeft c → 0 < sz)) ∧
    (∃ off sz, nextReadArea c = some (off, sz) ∧ off + sz ≤ cap ∧ sz ≤ datalen c ∧
      (0 < datalen c → 0 < sz)) ∧
    (∀ sg, ∃ c', sgWrite c sg 0 = some (c', min sg.flatten.length (roomLeft c)) ∧
      datalen c' = datalen c + min sg.flatten.length (roomLeft c) ∧ c'.cbuf.length = cap) := by
  obtain ⟨c', os', q', e, -, r, b⟩ := run_refines ops (rep_alloc hcap)
  rw [hrun] at e; simp at e; obtain ⟨rfl, -⟩ := e
  have b' : c.bufsize = cap := b
  have h1 := r.size_le
  refine ⟨by rw [r.mem_len, b'], by simp [roomLeft, datalen]; omega, ?_, ?_, ?_⟩
  · obtain ⟨off, sz, e, -, h2, h3, h4⟩ := nextWriteArea_spec r
    exact ⟨off, sz, e, by omega, by simpa [roomLeft] using h3, by
      intro h; unfold roomLeft at h; exact h4 (by omega)⟩
  · obtain ⟨sz, e, h2, h3, h4⟩ := nextReadArea_spec r
    exact ⟨_, sz, e, by omega, h3, h4⟩
  · intro sg
    obtain ⟨c2, e2, r2, b2⟩ := sgWrite_spec sg r 0
    have hl := r.len
    have hl2 := r2.len
    refine ⟨c2, by simpa [roomLeft] using e2, ?_, by rw [r2.mem_len]; omega⟩
    simp at hl2
    simp [datalen, roomLeft]; omega

/-- A reachable wrapped state: the write area is in the middle of the memory. -/
example : ((run (alloc 4) [.sgWrite [[1, 2, 3]], .read true 2, .sgWrite [[4, 5]]]).map
    fun r => (nextWriteArea r.1, nextReadArea r.1)) = some (some (1, 1), some (2, 2)) := by decide

end Gensio.CircBuf
