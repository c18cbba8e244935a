import Verif.Model.Mem

namespace Gensio.Mem

theorem read_eq {m : Mem} {off n : Nat} (h : off + n ≤ m.length) :
    m.read off n = some ((m.drop off).take n) := by simp [Mem.read, h]

theorem write_eq {m : Mem} {off : Nat} {d : List UInt8} (h : off + d.length ≤ m.length) :
    m.write off d = some (m.take off ++ d ++ m.drop (off + d.length)) := by
  simp [Mem.write, h]

theorem write_some {m m' : Mem} {off : Nat} {d : List UInt8} (h : m.write off d = some m') :
    off + d.length ≤ m.length ∧ m' = m.take off ++ d ++ m.drop (off + d.length) := by
  unfold Mem.write at h
  split at h
  · simp at h; exact ⟨by assumption, by simp [← h]⟩
  · simp at h

theorem write_length {m m' : Mem} {off : Nat} {d : List UInt8} (h : m.write off d = some m') :
    m'.length = m.length := by
  obtain ⟨h1, rfl⟩ := write_some h
  simp; omega

theorem write_get {m m' : Mem} {off : Nat} {d : List UInt8} (h : m.write off d = some m')
    (i : Nat) :
    m'[i]? = if off ≤ i ∧ i < off + d.length then d[i - off]? else m[i]? := by
  obtain ⟨h1, rfl⟩ := write_some h
  simp only [List.append_assoc, List.getElem?_append, List.length_take, List.getElem?_take,
    List.getElem?_drop]
  have : min off m.length = off := by omega
  rw [this]
  split
  · simp; omega
  · split
    · rw [if_pos (by omega)]
    · rw [if_neg (by omega)]; congr 1; omega

theorem read_get {m : Mem} {off n : Nat} {d : List UInt8} (h : m.read off n = some d) :
    d.length = n ∧ ∀ i, i < n → d[i]? = m[off + i]? := by
  unfold Mem.read at h
  split at h
  · simp at h; subst h
    constructor
    · simp; omega
    · intro i hi; simp [hi]
  · simp at h

end Gensio.Mem
