import Verif.Model.Buffer
import Verif.Lemmas.Mem
import Verif.Lemmas.CircBuf
/-!
# C03: the output buffer keeps byte order
-/
namespace Gensio.Buffer
open CircBuf (mod_cases)

/-! ## Helper lemmas -/

structure Rep (b : GB) (q : List UInt8) : Prop where
  mem_len : b.buf.length = b.maxsize
  pos_le : b.pos ≤ b.maxsize
  size_le : b.cursize ≤ b.maxsize
  len : q.length = b.cursize
  get : ∀ i, i < b.cursize → q[i]? = b.buf[(b.pos + i) % b.maxsize]?

private theorem idx {pos i n : Nat} (hp : pos ≤ n) (hi : i < n) :
    (pos + i < n ∧ (pos + i) % n = pos + i) ∨ (n ≤ pos + i ∧ (pos + i) % n = pos + i - n) :=
  mod_cases (by omega)

/-- Writing `d` (which fits before the end of memory and in the room left) at the end
position appends it. -/
private theorem put {b q} (h : Rep b q) (e : Nat) (d : List UInt8)
    (he : (e = b.pos + b.cursize ∧ e ≤ b.maxsize) ∨
          (b.maxsize ≤ b.pos + b.cursize ∧ e = b.pos + b.cursize - b.maxsize))
    (h1 : e + d.length ≤ b.maxsize) (h2 : b.cursize + d.length ≤ b.maxsize) :
    ∃ m, b.buf.write e d = some m ∧
      Rep { b with buf := m, cursize := b.cursize + d.length } (q ++ d) := by
  have hm := h.mem_len; have hp := h.pos_le; have hs := h.size_le; have hl := h.len
  have hw := Mem.write_eq (m := b.buf) (off := e) (d := d) (by omega)
  refine ⟨_, hw, (Mem.write_length hw).trans hm, hp, h2, by simp [hl], ?_⟩
  intro i hi
  simp only at hi ⊢
  rw [Mem.write_get hw]
  have hx := idx hp (i := i) (by omega)
  by_cases hlt : i < b.cursize
  · rw [List.getElem?_append_left (by omega), h.get i hlt, if_neg (by omega)]
  · rw [List.getElem?_append_right (by omega), hl, if_pos (by omega)]
    congr 1; omega

private theorem output_spec {b q} (h : Rep b q) (d : List UInt8) :
    ∃ b' n, output b d = some (b', n) ∧ Rep b' (q ++ d.take (b.maxsize - b.cursize)) ∧
      b'.maxsize = b.maxsize ∧
      (q.length + b.pos + min d.length (b.maxsize - b.cursize) ≤ b.maxsize →
        n = min d.length (b.maxsize - b.cursize)) := by
  have hm := h.mem_len; have hp := h.pos_le; have hs := h.size_le; have hl := h.len
  unfold output
  simp only [left]
  generalize hlen : (if b.maxsize - b.cursize < d.length then b.maxsize - b.cursize else d.length) = len
  have hlen' : len = min d.length (b.maxsize - b.cursize) := by rw [← hlen]; split <;> omega
  generalize hee : (if b.pos + b.cursize > b.maxsize then b.pos + b.cursize - b.maxsize
    else b.pos + b.cursize) = e
  have he : (e = b.pos + b.cursize ∧ e ≤ b.maxsize) ∨
      (b.maxsize ≤ b.pos + b.cursize ∧ e = b.pos + b.cursize - b.maxsize) := by
    rw [← hee]; split <;> omega
  by_cases hw : e + len > b.maxsize
  · rw [if_pos hw]
    have htl : (d.take (b.maxsize - e)).length = b.maxsize - e := by simp; omega
    obtain ⟨m, hw1, r1⟩ := put h e (d.take (b.maxsize - e)) he (by omega) (by omega)
    rw [htl] at r1
    simp only [hw1, Option.bind_eq_bind, Option.bind_some]
    have hd2 : ((d.drop (b.maxsize - e)).take (len - (b.maxsize - e))).length
        = len - (b.maxsize - e) := by simp; omega
    obtain ⟨m2, hw2, r2⟩ := put r1 0 ((d.drop (b.maxsize - e)).take (len - (b.maxsize - e)))
      (by simp only; omega) (by simp only; omega) (by simp only; omega)
    rw [hd2] at r2
    simp only [hw2, Option.bind_some]
    refine ⟨_, _, rfl, ?_, rfl, by omega⟩
    rw [List.append_assoc, ← List.take_add, show b.maxsize - e + (len - (b.maxsize - e)) = len by omega]
      at r2
    rw [List.take_eq_take_min, Nat.min_comm, ← hlen']; exact r2
  · rw [if_neg hw]
    have htl : (d.take len).length = len := by simp; omega
    obtain ⟨m, hw1, r1⟩ := put h e (d.take len) he (by omega) (by omega)
    rw [htl] at r1
    simp only [hw1, Option.bind_eq_bind, Option.bind_some]
    refine ⟨_, _, rfl, ?_, rfl, by omega⟩
    rw [List.take_eq_take_min, Nat.min_comm, ← hlen']; exact r1

private theorem outchar_spec {b q} (h : Rep b q) (c : UInt8) :
    ∃ b' n, outchar b c = some (b', n) ∧ Rep b' (q ++ [c].take (b.maxsize - b.cursize)) ∧
      b'.maxsize = b.maxsize ∧ n = min 1 (b.maxsize - b.cursize) := by
  have hm := h.mem_len; have hp := h.pos_le; have hs := h.size_le; have hl := h.len
  unfold outchar
  simp only [left]
  by_cases h1 : b.maxsize - b.cursize < 1
  · rw [if_pos h1]
    have : b.maxsize - b.cursize = 0 := by omega
    exact ⟨b, 0, rfl, by rw [this]; simpa using h, rfl, by omega⟩
  · rw [if_neg h1]
    generalize hee : (if b.pos + b.cursize ≥ b.maxsize then b.pos + b.cursize - b.maxsize
      else b.pos + b.cursize) = e
    have he : (e = b.pos + b.cursize ∧ e + 1 ≤ b.maxsize) ∨
        (b.maxsize ≤ b.pos + b.cursize ∧ e = b.pos + b.cursize - b.maxsize) := by
      rw [← hee]; split <;> omega
    obtain ⟨m, hw, r⟩ := put h e [c] (by omega) (by simp; omega) (by simp; omega)
    simp only [hw, Option.bind_eq_bind, Option.bind_some]
    refine ⟨_, _, rfl, ?_, rfl, by omega⟩
    rw [List.take_of_length_le (by simp; omega)]; exact r

/-- Consuming `k` bytes from the front. -/
private theorem adv {b q} (h : Rep b q) (k : Nat) (h1 : k ≤ b.cursize)
    (h2 : b.pos + k ≤ b.maxsize) :
    Rep { b with pos := b.pos + k, cursize := b.cursize - k } (q.drop k) := by
  have hm := h.mem_len; have hp := h.pos_le; have hs := h.size_le; have hl := h.len
  refine ⟨hm, h2, by simp; omega, by simp [hl], ?_⟩
  intro i hi
  simp only at hi ⊢
  rw [List.getElem?_drop, h.get _ (by omega), Nat.add_assoc]

private theorem wrap0 {b q} (h : Rep b q) (h1 : b.pos = b.maxsize) :
    Rep { b with pos := 0 } q := by
  refine ⟨h.mem_len, by simp, h.size_le, h.len, ?_⟩
  intro i hi
  simp only at hi ⊢
  rw [h.get i hi, h1]; simp

private theorem rd {b q} (h : Rep b q) (k : Nat) (h1 : k ≤ b.cursize)
    (h2 : b.pos + k ≤ b.maxsize) : b.buf.read b.pos k = some (q.take k) := by
  have hm := h.mem_len; have hp := h.pos_le; have hs := h.size_le; have hl := h.len
  rw [Mem.read_eq (by omega)]
  congr 1
  apply List.ext_getElem?
  intro i
  rw [List.getElem?_take, List.getElem?_take]
  split
  · rw [h.get i (by omega), List.getElem?_drop, Nat.mod_eq_of_lt (by omega)]
  · rfl

private theorem writeTail_spec {b q} (h : Rep b q) (t2 : Nat) (ht : t2 = b.cursize)
    (hp0 : 0 < t2 → b.pos = b.maxsize) (s2 : Option Nat) (out : List UInt8) :
    ∃ b' k ok, writeTail b t2 s2 out = some (b', out ++ q.take k, ok) ∧ k ≤ q.length ∧
      Rep b' (q.drop k) ∧ b'.maxsize = b.maxsize ∧ (ok = false → s2 = none) ∧
      (∀ w, s2 = some w → k = min w t2) := by
  have hm := h.mem_len; have hs := h.size_le; have hl := h.len
  unfold writeTail
  by_cases h0 : t2 > 0
  · rw [if_pos h0]
    have hw := wrap0 h (hp0 h0)
    have hr := rd hw t2 (by simp; omega) (by simp; omega)
    simp only at hr
    simp only [hr, Option.bind_eq_bind, Option.bind_some]
    cases s2 with
    | none => exact ⟨{ b with pos := 0 }, 0, false, by simp, by omega, by simpa using hw, rfl, by simp, by simp⟩
    | some w =>
      have ha := adv hw (min w t2) (by simp; omega) (by simp; omega)
      refine ⟨_, min w t2, true, ?_, by omega, ha, rfl, by simp, by simp⟩
      simp [List.take_take]
  · rw [if_neg h0]
    refine ⟨b, 0, true, by simp, by omega, by simpa using h, rfl, by simp, ?_⟩
    intro w _; omega

private theorem write_spec {b q} (h : Rep b q) (s1 s2 : Option Nat) :
    ∃ b' k ok, write b s1 s2 = some (b', q.take k, ok) ∧ k ≤ q.length ∧
      Rep b' (q.drop k) ∧ b'.maxsize = b.maxsize ∧
      (ok = false → s1 = none ∨ s2 = none) ∧
      (∀ w, q ≠ [] → s1 = some w → s2 = some w → 0 < w → 0 < k) := by
  have hm := h.mem_len; have hp := h.pos_le; have hs := h.size_le; have hl := h.len
  unfold write
  simp only
  by_cases hw : b.pos + b.cursize > b.maxsize
  · simp only [if_pos hw]
    by_cases h1 : b.maxsize - b.pos > 0
    · rw [if_pos h1, rd h _ (by omega) (by omega)]
      simp only [Option.bind_eq_bind, Option.bind_some]
      cases s1 with
      | none => exact ⟨b, 0, false, by simp, by omega, by simpa using h, rfl, by simp, by simp⟩
      | some w =>
        simp only
        have ha := adv h (min w (b.maxsize - b.pos)) (by omega) (by omega)
        by_cases h2 : min w (b.maxsize - b.pos) < b.maxsize - b.pos
        · rw [if_pos h2]
          refine ⟨_, min w (b.maxsize - b.pos), true, ?_, by omega, ha, rfl, by simp, ?_⟩
          · simp [List.take_take]
          · intro w' _ e _ _; simp at e; omega
        · rw [if_neg h2]
          obtain ⟨b', k, ok, e, hk, r, hb, hok, hkw⟩ := writeTail_spec ha
            (b.cursize - (b.maxsize - b.pos)) (by simp only; omega) (by simp only; omega) s2
            (List.take (min w (b.maxsize - b.pos)) (q.take (b.maxsize - b.pos)))
          refine ⟨b', b.maxsize - b.pos + k, ok, ?_, ?_, ?_, hb, by intro h; right; exact hok h, ?_⟩
          · rw [e, show min w (b.maxsize - b.pos) = b.maxsize - b.pos by omega]
            rw [List.take_take, Nat.min_self, List.take_add]
          · simp at hk; omega
          · rw [show min w (b.maxsize - b.pos) = b.maxsize - b.pos by omega, List.drop_drop] at r
            exact r
          · intros; omega
    · rw [if_neg h1]
      obtain ⟨b', k, ok, e, hk, r, hb, hok, hkw⟩ := writeTail_spec h
            (b.cursize - (b.maxsize - b.pos)) (by omega) (by omega) s2 []
      refine ⟨b', k, ok, by rw [e]; simp, hk, r, hb, by intro h; right; exact hok h, ?_⟩
      intro w _ _ e2 hw
      rw [hkw w e2]; omega
  · simp only [if_neg hw]
    by_cases h1 : b.cursize > 0
    · rw [if_pos h1, rd h _ (by omega) (by omega)]
      simp only [Option.bind_eq_bind, Option.bind_some]
      cases s1 with
      | none => exact ⟨b, 0, false, by simp, by omega, by simpa using h, rfl, by simp, by simp⟩
      | some w =>
        simp only
        have ha := adv h (min w b.cursize) (by omega) (by omega)
        have hq : List.take (min w b.cursize) (List.take b.cursize q) = q.take (min w b.cursize) := by
          simp [List.take_take]
        by_cases h2 : min w b.cursize < b.cursize
        · rw [if_pos h2]
          refine ⟨_, min w b.cursize, true, by rw [hq], by omega, ha, rfl, by simp, ?_⟩
          intro w' _ e _ _; simp at e; omega
        · rw [if_neg h2]
          refine ⟨_, min w b.cursize, true, by simp [writeTail, hq], by omega, ha, rfl, by simp, ?_⟩
          intros; omega
    · rw [if_neg h1]
      have hq : q = [] := by rw [← List.length_eq_zero_iff]; omega
      exact ⟨b, 0, true, by simp [writeTail], by omega, by simpa using h, rfl, by simp, by
        intro w hne; exact absurd hq hne⟩

/-! ## Specification and claims -/

/-- Bounded queue of capacity `cap` drained by a sink.  Everything but the number
returned by `output` is fixed here. -/
def Queue (cap : Nat) (q : List UInt8) (op : Op) (obs : Obs) (q' : List UInt8) : Prop :=
  obs.cursize = q'.length ∧ obs.cursize + obs.left = cap ∧
  match op with
  | .output d => obs.data = [] ∧ q' = q ++ d.take (cap - q.length)
  | .outchar c => obs.data = [] ∧ q' = q ++ [c].take (cap - q.length) ∧
      obs.count = min 1 (cap - q.length)
  | .write s1 s2 =>
      q = obs.data ++ q' ∧   -- the sink got a front part and the rest is kept
      (∀ w, q ≠ [] → s1 = some w → s2 = some w → 0 < w → obs.data ≠ [])

/-- The promise of gensio_buffer.h:34-37 about the value returned by `output`. -/
def CountOk (cap : Nat) (q : List UInt8) (op : Op) (obs : Obs) : Prop :=
  match op with
  | .output d => obs.count = min d.length (cap - q.length)
  | _ => True

def QueueTrace (cap : Nat) : List UInt8 → List Op → List Obs → List UInt8 → Prop
  | q, [], [], q' => q' = q
  | q, op :: ops, o :: os, q' => ∃ q1, Queue cap q op o q1 ∧ QueueTrace cap q1 ops os q'
  | _, _, _, _ => False

private theorem step_refines {b q} (h : Rep b q) (op : Op) :
    ∃ b' o q', step b op = some (b', o) ∧ Queue b.maxsize q op o q' ∧ Rep b' q' ∧
      b'.maxsize = b.maxsize := by
  have hl := h.len
  cases op with
  | output d =>
    obtain ⟨b', n, e, r, hb, -⟩ := output_spec h d
    refine ⟨b', _, _, by simp only [step, e]; rfl, ⟨r.len.symm, ?_, rfl, ?_⟩, r, hb⟩
    · have := r.size_le; simp only [left]; omega
    · rw [hl]
  | outchar c =>
    obtain ⟨b', n, e, r, hb, hn⟩ := outchar_spec h c
    refine ⟨b', _, _, by simp only [step, e]; rfl, ⟨r.len.symm, ?_, rfl, ?_, ?_⟩, r, hb⟩
    · have := r.size_le; simp only [left]; omega
    · rw [hl]
    · rw [hl]; exact hn
  | write s1 s2 =>
    obtain ⟨b', k, ok, e, hk, r, hb, -, hpos⟩ := write_spec h s1 s2
    refine ⟨b', _, _, by simp only [step, e]; rfl, ⟨r.len.symm, ?_, ?_, ?_⟩, r, hb⟩
    · have := r.size_le; simp only [left]; omega
    · simp
    · intro w h1 h2 h3 h4
      have h5 := hpos w h1 h2 h3 h4
      have h6 : 0 < q.length := List.length_pos_iff.mpr h1
      apply List.ne_nil_of_length_pos
      simp; omega

private theorem rep_init (data : Mem) : Rep (init data) [] :=
  ⟨rfl, by simp [init], by simp [init], by simp [init], by simp [init]⟩

private theorem run_refines (ops : List Op) : ∀ {b q} (_ : Rep b q),
    ∃ b' os q', run b ops = some (b', os) ∧ QueueTrace b.maxsize q ops os q' ∧ Rep b' q' ∧
      b'.maxsize = b.maxsize := by
  induction ops with
  | nil => intro b q h; exact ⟨b, [], q, rfl, rfl, h, rfl⟩
  | cons op ops ih =>
    intro b q h
    obtain ⟨b1, o, q1, e1, s1, r1, m1⟩ := step_refines h op
    obtain ⟨b2, os, q2, e2, s2, r2, m2⟩ := ih r1
    exact ⟨b2, o :: os, q2, by simp [run, e1, e2], ⟨q1, s1, by rw [← m1]; exact s2⟩, r2, by omega⟩

/-- **C03 (partial).**  Over any memory, any history of outputs and drains into any sink
runs without out-of-bounds access and behaves as a bounded queue: `output` appends the
longest prefix that fits, drains hand the sink the stored bytes in order, losing and
repeating none, and make progress if the sink does.
Missing from C03: the *number returned* by `gensio_buffer_output` (see
`C03_buffer_count_violated`); it is right when the data does not pass the end of memory
(`C03_buffer_count_nowrap_partial`). -/
theorem C03_buffer_queue_partial (data : Mem) (ops : List Op) :
    ∃ b' os q', run (init data) ops = some (b', os) ∧
      QueueTrace data.length [] ops os q' := by
  obtain ⟨b', os, q', e, t, -, -⟩ := run_refines ops (rep_init data)
  exact ⟨b', os, q', e, t⟩

example : (run (init [0, 0, 0, 0]) [.output [1, 2, 3], .write (some 2) (some 9), .output [4, 5, 6],
      .write (some 9) none, .write none (some 1), .outchar 7, .write (some 9) (some 9)]).map
      (·.2.map (·.data)) = some [[], [1, 2], [], [3, 4], [], [], [5, 6, 7]] := by decide

/-- **C03 (partial), returned number.**  In every reachable state in which the stored
data together with the accepted data does not pass the end of the memory, `output`
returns the number of bytes it appended. -/
theorem C03_buffer_count_nowrap_partial (data : Mem) (ops : List Op) (b : GB) (os : List Obs)
    (hrun : run (init data) ops = some (b, os)) (d : List UInt8)
    (hnowrap : b.pos + b.cursize + min d.length (left b) ≤ data.length) :
    ∃ b', output b d = some (b', min d.length (left b)) ∧
      b'.cursize = b.cursize + min d.length (left b) := by
  obtain ⟨b1, os', q', e, -, r, hm⟩ := run_refines ops (rep_init data)
  rw [hrun] at e; simp at e; obtain ⟨rfl, -⟩ := e
  have hm' : b.maxsize = data.length := hm
  obtain ⟨b', n, e, r', hb, hn⟩ := output_spec r d
  have hl := r.len
  have hl' := r'.len
  unfold left at *
  have := hn (by omega)
  subst this
  refine ⟨b', e, ?_⟩
  simp at hl'; omega

example : ∃ b os, run (init [0, 0, 0, 0]) [.output [1, 2], .write (some 1) none] = some (b, os) ∧
    b.pos + b.cursize + min [(9 : UInt8)].length (left b) ≤ 4 ∧ 0 < b.pos := by
  refine ⟨_, _, rfl, ?_⟩; decide

/-- **C03 is violated**: a reachable buffer of 4 bytes appends 3 bytes (all are stored
and later drained) but `gensio_buffer_output` returns 2: lib/buffer.c:88 subtracts the
part stored before the wrap from the value returned at line 94. -/
theorem C03_buffer_count_violated :
    ∃ (data : Mem) (ops : List Op) (b b' : GB) (os : List Obs) (d : List UInt8) (n : Nat),
      run (init data) ops = some (b, os) ∧ output b d = some (b', n) ∧
      b'.cursize = b.cursize + d.length ∧ n ≠ d.length := by
  refine ⟨[0, 0, 0, 0], [.output [1, 2, 3], .write (some 3) none], _, _, _, [4, 5, 6], _, rfl, rfl, ?_⟩
  decide

end Gensio.Buffer
