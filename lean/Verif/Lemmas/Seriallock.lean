import Verif.Model.Seriallock
import Verif.Lemmas.CLib

/-!
# Lemmas about the locks of serial ports
-/

namespace Gensio.Slock

open Gensio.CLib

@[simp] theorem upd_same {α : Type} (f : Nat → α) (k : Nat) (v : α) : upd f k v k = v := by simp [upd]

theorem upd_ne {α : Type} (f : Nat → α) {k n : Nat} (v : α) (h : n ≠ k) : upd f k v n = f n := by simp [upd, h]

theorem dec_length (n k : Nat) (h : n < 10 ^ (k + 1)) : (dec n).length ≤ k + 1 := by
  induction k generalizing n with
  | zero => rw [dec, if_pos (by omega)]; simp
  | succ k ih =>
    rw [dec]
    split
    · simp
    · rw [List.length_append, List.length_singleton]
      have : n / 10 < 10 ^ (k + 1) := by
        rw [Nat.div_lt_iff_lt_mul (by omega)]
        rw [Nat.pow_succ] at h
        omega
      have := ih (n / 10) this
      omega

theorem fmtPid_length {n : Nat} (h : n < 10000000000) : (fmtPid n).length = 11 := by
  have := dec_length n 9 (by simpa using h)
  simp only [fmtPid, List.length_append, List.length_replicate, List.length_singleton]
  omega

theorem isDigit_not {c : UInt8} (h : isDigit c = true) : isSpace c = false ∧ c ≠ 0 ∧ c ≠ 45 ∧ c ≠ 43 := by
  rw [isDigit_iff] at h
  refine ⟨?_, ?_, ?_, ?_⟩
  · simp only [isSpace, Bool.or_eq_false_iff, decide_eq_false_iff_not, Bool.and_eq_false_iff]
    refine ⟨?_, Or.inr ?_⟩
    · intro e; subst e; simp at h
    · rw [UInt8.le_iff_toNat_le]; simp; omega
  all_goals intro e; subst e; simp at h

theorem dropWhile_spaces (n : Nat) (l : List UInt8) (h : ∀ c t, l = c :: t → isSpace c = false) :
    (List.replicate n 32 ++ l).dropWhile isSpace = l := by
  induction n with
  | zero =>
    cases l with
    | nil => rfl
    | cons c t => simp [h c t rfl]
  | succ n ih =>
    rw [List.replicate_succ, List.cons_append, List.dropWhile_cons_of_pos (by decide)]
    exact ih

theorem takeWhile_all (f : UInt8 → Bool) (l : List UInt8) (h : ∀ c ∈ l, f c = true) : l.takeWhile f = l := by
  induction l with
  | nil => rfl
  | cons c l ih =>
    rw [List.takeWhile_cons_of_pos (h c List.mem_cons_self), ih (fun x hx => h x (List.mem_cons_of_mem _ hx))]

/-- What a process writes is read as its number. -/
theorem lockPid_fmt {n : Nat} (h : n < 10000000000) : lockPid (fmtPid n) = n := by
  have hl := fmtPid_length h
  have hd := dec_length n 9 (by simpa using h)
  unfold lockPid
  rw [List.take_of_length_le (by omega)]
  split
  · rename_i e; rw [e] at hl; simp at hl
  · have hz : (fmtPid n).takeWhile (· ≠ 0) = fmtPid n := by
      apply takeWhile_all
      intro c hc
      simp only [fmtPid, List.mem_append, List.mem_replicate, List.mem_singleton] at hc
      simp only [ne_eq, decide_not, Bool.not_eq_true', decide_eq_false_iff_not]
      rcases hc with (⟨-, rfl⟩ | hc) | rfl
      · decide
      · exact (isDigit_not (dec_digits n c hc)).2.1
      · decide
    rw [hz]
    unfold scan10d fmtPid
    obtain ⟨c, t, e⟩ : ∃ c t, dec n = c :: t := by
      cases hd : dec n with
      | nil => exact absurd hd (dec_ne_nil n)
      | cons c t => exact ⟨c, t, rfl⟩
    have hc := isDigit_not (dec_digits n c (by rw [e]; exact List.mem_cons_self))
    rw [List.append_assoc, dropWhile_spaces _ _ (by rw [e]; intro a b h; injection h with h; rw [← h]; exact hc.1)]
    have hv : digits 0 (List.take 10 (dec n ++ [10])) = n := by
      rw [List.take_append, List.take_of_length_le (by omega), digits_append _ _ _ (dec_digits n), digits_dec]
      apply digits_stop
      intro a b h
      have : a = 10 := by
        have : a ∈ List.take (10 - (dec n).length) [10] := by rw [h]; exact List.mem_cons_self
        simpa using List.mem_of_mem_take this
      rw [this]; decide
    have hh : (List.take 10 (dec n ++ [10])).head? = some c := by
      rw [e]; rfl
    split
    · rename_i r hr; rw [hr] at hh; simp at hh; exact absurd hh.symm hc.2.2.1
    · rename_i r hr; rw [hr] at hh; simp at hh; exact absurd hh.symm hc.2.2.2
    · rw [hv]

theorem fmtPid_ne (n : Nat) : fmtPid n ≠ [] := by simp [fmtPid]

theorem fmtPid_inj {m n : Nat} (hm : m < 10000000000) (hn : n < 10000000000) (h : fmtPid m = fmtPid n) : m = n := by
  have h1 := lockPid_fmt hm
  rw [h, lockPid_fmt hn] at h1
  omega

theorem lockPid_nil : lockPid [] = 0 := by decide

/-- Between having made the first lock file and removing it. -/
def Pc.owns : Pc → Bool
  | .write _ | .undo | .link | .flock | .held | .rm1 => true
  | _ => false

/-- Having written into the first lock file and not removed it. -/
def Pc.owns1 : Pc → Bool
  | .link | .flock | .held | .rm1 => true
  | _ => false

/-- Having made the second lock file and not removed it. -/
def Pc.owns2 : Pc → Bool
  | .flock | .held | .rm1 | .rm2 => true
  | _ => false

structure Inv (n1 n2 : Nat) (s : Sys) : Prop where
  uucp : ∀ i, s.uucp i = true
  name1 : ∀ i, s.name1 i = n1
  name2 : s.name2 = n2
  ne : n1 ≠ n2
  uniq : ∀ i j, (s.pc i).owns = true → (s.pc j).owns = true → i = j
  some1 : ∀ i, (s.pc i).owns = true → s.dir n1 ≠ none
  file1 : ∀ ino, s.dir n1 = some ino → ino < s.nextIno ∧ ∃ i, (s.pc i = .write ino ∧ s.data ino = [])
    ∨ (s.pc i = .undo ∧ s.data ino = []) ∨ ((s.pc i).owns1 = true ∧ s.data ino = fmtPid i ∧ i < 10000000000)
  file2 : ∀ ino, s.dir n2 = some ino → ino < s.nextIno ∧ ∃ i, (s.pc i).owns2 = true ∧ s.data ino = fmtPid i
    ∧ i < 10000000000
  read : ∀ j b ino, s.pc j = .read b ino → ino < s.nextIno ∧ (s.data ino = [] ∨ ∃ i, s.data ino = fmtPid i
    ∧ s.pc i ≠ .dead ∧ i < 10000000000)
  kill : ∀ j b i, s.pc j = .kill b i → s.pc i ≠ .dead
  stale : ∀ j b, s.pc j ≠ .stale b
  small : ∀ i, (s.pc i).owns = true → i < 10000000000

/-- A process that has no part in the lock goes on and has none after. -/
theorem Inv.move {n1 n2 : Nat} {s : Sys} (x : Inv n1 n2 s) (i : Nat) (p : Pc) (h1 : (s.pc i).owns = false)
    (h2 : (s.pc i).owns2 = false) (h3 : p.owns = false) (h4 : p.owns2 = false) (hd : p ≠ .dead)
    (hr : ∀ b ino, p = .read b ino → ino < s.nextIno ∧ (s.data ino = [] ∨ ∃ i, s.data ino = fmtPid i
      ∧ s.pc i ≠ .dead ∧ i < 10000000000)) (hk : ∀ b k, p = .kill b k → s.pc k ≠ .dead) (hs : ∀ b, p ≠ .stale b) :
    Inv n1 n2 (s.at i p) := by
  obtain ⟨a1, a2, a3, a4, a5, a6, a7, a8, a9, a10, a11, a12⟩ := x
  have o1 : (s.pc i).owns1 = false := by
    cases h : s.pc i <;> rw [h] at h1 <;> first | rfl | cases h1
  refine ⟨a1, a2, a3, a4, ?_, ?_, ?_, ?_, ?_, ?_, ?_, ?_⟩
  all_goals simp only [Sys.at, upd]
  · grind
  · grind
  · intro ino e
    obtain ⟨b1, k, b2⟩ := a7 ino e
    refine ⟨b1, k, ?_⟩
    have : k ≠ i := by
      rintro rfl
      rcases b2 with ⟨b, -⟩ | ⟨b, -⟩ | ⟨b, -⟩
      · rw [b] at h1; cases h1
      · rw [b] at h1; cases h1
      · rw [b] at o1; cases o1
    rw [if_neg this]; exact b2
  · intro ino e
    obtain ⟨b1, k, b2⟩ := a8 ino e
    refine ⟨b1, k, ?_⟩
    have : k ≠ i := by
      rintro rfl; rw [b2.1] at h2; cases h2
    rw [if_neg this]; exact b2
  · intro j b ino e
    have : ino < s.nextIno ∧ (s.data ino = [] ∨ ∃ i, s.data ino = fmtPid i ∧ s.pc i ≠ .dead ∧ i < 10000000000) := by
      split at e
      · exact hr b ino e
      · exact a9 j b ino e
    refine ⟨this.1, this.2.imp_right ?_⟩
    rintro ⟨k, g1, g2, g3⟩
    refine ⟨k, g1, ?_, g3⟩
    split
    · exact hd
    · exact g2
  · intro j b k e
    have : s.pc k ≠ .dead := by
      split at e
      · exact hk b k e
      · exact a10 j b k e
    split
    · exact hd
    · exact this
  · intro j b
    split
    · exact hs b
    · exact a11 j b
  · intro j e
    split at e
    · rw [h3] at e; cases e
    · exact a12 j e

theorem Inv.flock {n1 n2 : Nat} {s : Sys} (x : Inv n1 n2 s) (f : Option Nat) : Inv n1 n2 { s with flock := f } := by
  obtain ⟨a1, a2, a3, a4, a5, a6, a7, a8, a9, a10, a11, a12⟩ := x
  exact ⟨a1, a2, a3, a4, a5, a6, a7, a8, a9, a10, a11, a12⟩

theorem owns_of_owns1 {p : Pc} (h : p.owns1 = true) : p.owns = true := by
  cases p <;> first | rfl | cases h

/-- The process of the first lock file, which has been written. -/
theorem Inv.owner {n1 n2 : Nat} {s : Sys} (x : Inv n1 n2 s) {i : Nat} (h : (s.pc i).owns = true) :
    ∃ ino, s.dir n1 = some ino ∧ ino < s.nextIno ∧ ((s.pc i = .write ino ∧ s.data ino = [])
    ∨ (s.pc i = .undo ∧ s.data ino = []) ∨ ((s.pc i).owns1 = true ∧ s.data ino = fmtPid i)) := by
  cases hd : s.dir n1 with
  | none => exact absurd hd (x.some1 i h)
  | some ino =>
    obtain ⟨b1, k, b2⟩ := x.file1 ino hd
    have hk : (s.pc k).owns = true := by
      rcases b2 with ⟨b, -⟩ | ⟨b, -⟩ | ⟨b, -⟩
      · rw [b]; rfl
      · rw [b]; rfl
      · exact owns_of_owns1 b
    have : k = i := x.uniq k i hk h
    subst this
    exact ⟨ino, rfl, b1, b2.imp_right (Or.imp_right fun g => ⟨g.1, g.2.1⟩)⟩

/-- A process that has written the first lock file goes on and keeps it. -/
theorem Inv.keep {n1 n2 : Nat} {s : Sys} (x : Inv n1 n2 s) (i : Nat) (p : Pc) (h1 : (s.pc i).owns1 = true)
    (h2 : p.owns1 = true) (h3 : (s.pc i).owns2 = true → p.owns2 = true) : Inv n1 n2 (s.at i p) := by
  have ho := owns_of_owns1 h1
  obtain ⟨ino0, d0, l0, c0⟩ := x.owner ho
  have c0 : s.data ino0 = fmtPid i := by
    rcases c0 with ⟨b, -⟩ | ⟨b, -⟩ | ⟨-, b⟩
    · rw [b] at h1; cases h1
    · rw [b] at h1; cases h1
    · exact b
  have hsm := x.small i ho
  obtain ⟨a1, a2, a3, a4, a5, a6, a7, a8, a9, a10, a11, a12⟩ := x
  have hp : p.owns = true := owns_of_owns1 h2
  have hd : p ≠ .dead := by rintro rfl; cases h2
  refine ⟨a1, a2, a3, a4, ?_, ?_, ?_, ?_, ?_, ?_, ?_, ?_⟩
  all_goals simp only [Sys.at, upd]
  · grind
  · grind
  · intro ino e
    rw [d0] at e
    obtain rfl := Option.some.inj e
    exact ⟨l0, i, Or.inr (Or.inr ⟨by rw [if_pos rfl]; exact h2, c0, hsm⟩)⟩
  · intro ino e
    obtain ⟨b1, k, b2, b3, b4⟩ := a8 ino e
    refine ⟨b1, k, ?_, b3, b4⟩
    split
    · rename_i e; rw [e] at b2; exact h3 b2
    · exact b2
  · intro j b ino e
    split at e
    · rw [e] at h2; cases h2
    · obtain ⟨g1, g2⟩ := a9 j b ino e
      refine ⟨g1, g2.imp_right ?_⟩
      rintro ⟨k, g1, g2, g3⟩
      refine ⟨k, g1, ?_, g3⟩
      split
      · exact hd
      · exact g2
  · intro j b k e
    split at e
    · rw [e] at h2; cases h2
    · split
      · exact hd
      · exact a10 j b k e
  · intro j b
    split
    · rintro rfl; cases h2
    · exact a11 j b
  · intro j e
    split at e
    · rename_i e'; rw [e']; exact hsm
    · exact a12 j e

/-- The second lock file is removed. -/
theorem Inv.unlink2 {n1 n2 : Nat} {s : Sys} (x : Inv n1 n2 s) : Inv n1 n2 { s with dir := upd s.dir n2 none } := by
  obtain ⟨a1, a2, a3, a4, a5, a6, a7, a8, a9, a10, a11, a12⟩ := x
  refine ⟨a1, a2, a3, a4, a5, ?_, ?_, ?_, a9, a10, a11, a12⟩
  · simp only [upd_ne _ _ a4]; exact a6
  · simp only [upd_ne _ _ a4]; exact a7
  · intro ino e; simp at e

/-- The second lock file is made. -/
theorem Inv.link2 {n1 n2 : Nat} {s : Sys} (x : Inv n1 n2 s) {i ino : Nat} {p : Pc} (h1 : s.pc i = .link)
    (hd : s.dir n1 = some ino) (h2 : p.owns1 = true) (h3 : p.owns2 = true) :
    Inv n1 n2 ({ s with dir := upd s.dir n2 (some ino) }.at i p) := by
  have ho : (s.pc i).owns = true := by rw [h1]; rfl
  have y := x.keep i p (by rw [h1]; rfl) h2 (fun _ => h3)
  obtain ⟨ino0, d0, l0, c0⟩ := x.owner ho
  rw [hd] at d0
  obtain rfl := Option.some.inj d0
  have c0 : s.data ino = fmtPid i := by
    rcases c0 with ⟨b, -⟩ | ⟨b, -⟩ | ⟨-, b⟩
    · rw [b] at h1; cases h1
    · rw [b] at h1; cases h1
    · exact b
  have hsm := x.small i ho
  obtain ⟨a1, a2, a3, a4, a5, a6, a7, a8, a9, a10, a11, a12⟩ := y
  refine ⟨a1, a2, a3, a4, a5, ?_, ?_, ?_, a9, a10, a11, a12⟩
  · simp only [Sys.at, upd_ne _ _ a4] at a6 ⊢; exact a6
  · simp only [Sys.at, upd_ne _ _ a4] at a7 ⊢; exact a7
  · intro k e
    simp only [Sys.at, upd_same, Option.some.injEq] at e
    subst e
    exact ⟨l0, i, by simp only [Sys.at, upd_same]; exact h3, c0, hsm⟩

/-- The first lock file is removed by its process. -/
theorem Inv.unlink1 {n1 n2 : Nat} {s : Sys} (x : Inv n1 n2 s) {i : Nat} {p : Pc} (h1 : (s.pc i).owns = true)
    (h2 : (s.pc i).owns2 = true → p.owns2 = true) (h3 : p = .rm2 ∨ p = .idle) :
    Inv n1 n2 ({ s with dir := upd s.dir n1 none }.at i p) := by
  obtain ⟨a1, a2, a3, a4, a5, a6, a7, a8, a9, a10, a11, a12⟩ := x
  have hp : p.owns = false := by rcases h3 with rfl | rfl <;> rfl
  have hd : p ≠ .dead := by rcases h3 with rfl | rfl <;> simp
  refine ⟨a1, a2, a3, a4, ?_, ?_, ?_, ?_, ?_, ?_, ?_, ?_⟩
  all_goals simp only [Sys.at]
  · intro j k; simp only [upd]; grind
  · intro j e
    simp only [upd] at e
    split at e
    · rw [hp] at e; cases e
    · rename_i hne; exact absurd (a5 j i e h1) hne
  · intro ino e; simp at e
  · intro ino e
    rw [upd_ne _ _ (Ne.symm a4)] at e
    obtain ⟨b1, k, b2, b3, b4⟩ := a8 ino e
    refine ⟨b1, k, ?_, b3, b4⟩
    simp only [upd]
    split
    · rename_i e; rw [e] at b2; exact h2 b2
    · exact b2
  · intro j b ino e
    simp only [upd] at e ⊢
    split at e
    · rcases h3 with rfl | rfl <;> cases e
    · obtain ⟨g1, g2⟩ := a9 j b ino e
      refine ⟨g1, g2.imp_right ?_⟩
      rintro ⟨k, g1, g2, g3⟩
      refine ⟨k, g1, ?_, g3⟩
      split
      · exact hd
      · exact g2
  · intro j b k e
    simp only [upd] at e ⊢
    split at e
    · rcases h3 with rfl | rfl <;> cases e
    · split
      · exact hd
      · exact a10 j b k e
  · intro j b
    simp only [upd]
    split
    · rcases h3 with rfl | rfl <;> simp
    · exact a11 j b
  · intro j e
    simp only [upd] at e
    split at e
    · rw [hp] at e; cases e
    · exact a12 j e

/-- The first lock file is made. -/
theorem Inv.create {n1 n2 : Nat} {s : Sys} (x : Inv n1 n2 s) {i : Nat} (hi : i < 10000000000) (h1 : s.pc i = .create)
    (hd : s.dir n1 = none) : Inv n1 n2 ({ s with dir := upd s.dir n1 (some s.nextIno), data := upd s.data s.nextIno [], nextIno := s.nextIno + 1 }.at i
      (.write s.nextIno)) := by
  obtain ⟨a1, a2, a3, a4, a5, a6, a7, a8, a9, a10, a11, a12⟩ := x
  have no : ∀ j, (s.pc j).owns = false := by
    intro j
    apply Classical.byContradiction; intro e
    exact a6 j (by simpa using e) hd
  refine ⟨a1, a2, a3, a4, ?_, ?_, ?_, ?_, ?_, ?_, ?_, ?_⟩
  all_goals simp only [Sys.at]
  · intro j k e1 e2
    simp only [upd] at e1 e2
    have := no j; have := no k
    grind
  · intro j _; simp
  · intro ino e
    simp only [upd_same, Option.some.injEq] at e
    subst e
    refine ⟨by omega, i, Or.inl ?_⟩
    simp
  · intro ino e
    rw [upd_ne _ _ (Ne.symm a4)] at e
    obtain ⟨b1, k, b2, b3, b4⟩ := a8 ino e
    refine ⟨by omega, k, ?_, ?_, b4⟩
    · have : k ≠ i := by rintro rfl; rw [h1] at b2; cases b2
      rw [upd_ne _ _ this]; exact b2
    · rw [upd_ne _ _ (by omega)]; exact b3
  · intro j b ino e
    simp only [upd] at e
    split at e
    · cases e
    · obtain ⟨g1, g2⟩ := a9 j b ino e
      refine ⟨by omega, ?_⟩
      rw [upd_ne _ _ (by omega)]
      refine g2.imp_right ?_
      rintro ⟨k, g1, g2, g3⟩
      refine ⟨k, g1, ?_, g3⟩
      simp only [upd]
      split
      · simp
      · exact g2
  · intro j b k e
    simp only [upd] at e ⊢
    split at e
    · cases e
    · split
      · simp
      · exact a10 j b k e
  · intro j b
    simp only [upd]
    split
    · simp
    · exact a11 j b
  · intro j e
    simp only [upd] at e
    split at e
    · rename_i e'; rw [e']; exact hi
    · rw [no j] at e; cases e

/-- The first lock file is written. -/
theorem Inv.write {n1 n2 : Nat} {s : Sys} (x : Inv n1 n2 s) {i ino : Nat} (h1 : s.pc i = .write ino) :
    Inv n1 n2 ({ s with data := upd s.data ino (fmtPid i) }.at i .link) := by
  have ho : (s.pc i).owns = true := by rw [h1]; rfl
  obtain ⟨ino0, d0, l0, c0⟩ := x.owner ho
  have c0 : ino0 = ino ∧ s.data ino = [] := by
    rcases c0 with ⟨b, b2⟩ | ⟨b, -⟩ | ⟨b, -⟩
    · rw [b] at h1; injection h1 with h1; subst h1; exact ⟨rfl, b2⟩
    · rw [b] at h1; cases h1
    · rw [h1] at b; cases b
  obtain ⟨rfl, c0⟩ := c0
  have hsm := x.small i ho
  obtain ⟨a1, a2, a3, a4, a5, a6, a7, a8, a9, a10, a11, a12⟩ := x
  refine ⟨a1, a2, a3, a4, ?_, ?_, ?_, ?_, ?_, ?_, ?_, ?_⟩
  all_goals simp only [Sys.at]
  · intro j k e1 e2
    simp only [upd] at e1 e2
    grind
  · intro j _; rw [d0]; simp
  · intro k e
    rw [d0] at e
    obtain rfl := Option.some.inj e
    exact ⟨l0, i, Or.inr (Or.inr ⟨by simp [Pc.owns1], by simp, hsm⟩)⟩
  · intro k e
    obtain ⟨b1, j, b2, b3, b4⟩ := a8 k e
    refine ⟨b1, j, ?_, ?_, b4⟩
    · have : j ≠ i := by rintro rfl; rw [h1] at b2; cases b2
      rw [upd_ne _ _ this]; exact b2
    · have : k ≠ ino0 := by rintro rfl; rw [b3] at c0; exact fmtPid_ne _ c0
      rw [upd_ne _ _ this]; exact b3
  · intro j b k e
    simp only [upd] at e
    split at e
    · cases e
    · obtain ⟨g1, g2⟩ := a9 j b k e
      refine ⟨g1, ?_⟩
      by_cases hk : k = ino0
      · subst hk
        right
        exact ⟨i, by simp, by simp, hsm⟩
      · rw [upd_ne _ _ hk]
        refine g2.imp_right ?_
        rintro ⟨k, g1, g2, g3⟩
        refine ⟨k, g1, ?_, g3⟩
        simp only [upd]
        split
        · simp
        · exact g2
  · intro j b k e
    simp only [upd] at e ⊢
    split at e
    · cases e
    · split
      · simp
      · exact a10 j b k e
  · intro j b
    simp only [upd]
    split
    · simp
    · exact a11 j b
  · intro j e
    simp only [upd] at e
    split at e
    · rename_i e'; rw [e']; exact hsm
    · exact a12 j e

/-- Writing fails. -/
theorem Inv.fail {n1 n2 : Nat} {s : Sys} (x : Inv n1 n2 s) {i ino : Nat} (h1 : s.pc i = .write ino) :
    Inv n1 n2 (s.at i .undo) := by
  have ho : (s.pc i).owns = true := by rw [h1]; rfl
  obtain ⟨ino0, d0, l0, c0⟩ := x.owner ho
  have c0 : s.data ino0 = [] := by
    rcases c0 with ⟨b, b2⟩ | ⟨b, -⟩ | ⟨b, -⟩
    · exact b2
    · rw [b] at h1; cases h1
    · rw [h1] at b; cases b
  have hsm := x.small i ho
  obtain ⟨a1, a2, a3, a4, a5, a6, a7, a8, a9, a10, a11, a12⟩ := x
  refine ⟨a1, a2, a3, a4, ?_, ?_, ?_, ?_, ?_, ?_, ?_, ?_⟩
  all_goals simp only [Sys.at]
  · intro j k e1 e2
    simp only [upd] at e1 e2
    grind
  · intro j _; rw [d0]; simp
  · intro k e
    rw [d0] at e
    obtain rfl := Option.some.inj e
    exact ⟨l0, i, Or.inr (Or.inl ⟨by simp, c0⟩)⟩
  · intro k e
    obtain ⟨b1, j, b2, b3, b4⟩ := a8 k e
    refine ⟨b1, j, ?_, b3, b4⟩
    have : j ≠ i := by rintro rfl; rw [h1] at b2; cases b2
    rw [upd_ne _ _ this]; exact b2
  · intro j b k e
    simp only [upd] at e
    split at e
    · cases e
    · obtain ⟨g1, g2⟩ := a9 j b k e
      refine ⟨g1, g2.imp_right ?_⟩
      rintro ⟨k, g1, g2, g3⟩
      refine ⟨k, g1, ?_, g3⟩
      simp only [upd]
      split
      · simp
      · exact g2
  · intro j b k e
    simp only [upd] at e ⊢
    split at e
    · cases e
    · split
      · simp
      · exact a10 j b k e
  · intro j b
    simp only [upd]
    split
    · simp
    · exact a11 j b
  · intro j e
    simp only [upd] at e
    split at e
    · rename_i e'; rw [e']; exact hsm
    · exact a12 j e

/-- A process that is not waited for ends. -/
theorem Inv.die {n1 n2 : Nat} {s : Sys} (x : Inv n1 n2 s) {i : Nat} (h1 : s.pc i = .idle)
    (h2 : ∀ j b, s.pc j ≠ .kill b i) (h3 : ∀ j b ino, s.pc j = .read b ino → s.data ino ≠ fmtPid i) :
    Inv n1 n2 (s.at i .dead) := by
  obtain ⟨a1, a2, a3, a4, a5, a6, a7, a8, a9, a10, a11, a12⟩ := x
  refine ⟨a1, a2, a3, a4, ?_, ?_, ?_, ?_, ?_, ?_, ?_, ?_⟩
  all_goals simp only [Sys.at]
  · intro j k e1 e2
    simp only [upd] at e1 e2
    split at e1
    · cases e1
    · split at e2
      · cases e2
      · exact a5 j k e1 e2
  · intro j e
    simp only [upd] at e
    split at e
    · cases e
    · exact a6 j e
  · intro ino e
    obtain ⟨b1, k, b2⟩ := a7 ino e
    refine ⟨b1, k, ?_⟩
    have : k ≠ i := by
      rintro rfl
      rcases b2 with ⟨b, -⟩ | ⟨b, -⟩ | ⟨b, -⟩
      · rw [b] at h1; cases h1
      · rw [b] at h1; cases h1
      · rw [h1] at b; cases b
    rw [upd_ne _ _ this]; exact b2
  · intro ino e
    obtain ⟨b1, k, b2⟩ := a8 ino e
    refine ⟨b1, k, ?_⟩
    have : k ≠ i := by rintro rfl; rw [h1] at b2; cases b2.1
    rw [upd_ne _ _ this]; exact b2
  · intro j b ino e
    simp only [upd] at e
    split at e
    · cases e
    · obtain ⟨g1, g2⟩ := a9 j b ino e
      refine ⟨g1, g2.imp_right ?_⟩
      rintro ⟨k, g1, g2, g3⟩
      refine ⟨k, g1, ?_, g3⟩
      have : k ≠ i := by rintro rfl; exact h3 j b ino e g1
      rw [upd_ne _ _ this]; exact g2
  · intro j b k e
    simp only [upd] at e
    split at e
    · cases e
    · have : k ≠ i := by rintro rfl; exact h2 j b e
      rw [upd_ne _ _ this]; exact a10 j b k e
  · intro j b
    simp only [upd]
    split
    · simp
    · exact a11 j b
  · intro j e
    simp only [upd] at e
    split at e
    · cases e
    · exact a12 j e

theorem at_flock (s : Sys) (i : Nat) (p : Pc) (f : Option Nat) : ({ s with flock := f } : Sys).at i p
    = { s.at i p with flock := f } := rfl

theorem Inv.go {n1 n2 : Nat} {s : Sys} (x : Inv n1 n2 s) {i : Nat} (hi : i < 10000000000) : Inv n1 n2 (s.go i) := by
  have next : ∀ b, (nextCheck b).owns = false ∧ (nextCheck b).owns2 = false ∧ nextCheck b ≠ .dead
      ∧ (∀ c ino, nextCheck b ≠ .read c ino) ∧ (∀ c k, nextCheck b ≠ .kill c k) ∧ ∀ c, nextCheck b ≠ .stale c := by
    intro b; cases b <;> simp [nextCheck, Pc.owns, Pc.owns2]
  have toNext : ∀ b, (s.pc i).owns = false → (s.pc i).owns2 = false → Inv n1 n2 (s.at i (nextCheck b)) := by
    intro b h1 h2
    obtain ⟨b1, b2, b3, b4, b5, b6⟩ := next b
    exact x.move i _ h1 h2 b1 b2 b3 (fun c ino e => absurd e (b4 c ino)) (fun c k e => absurd e (b5 c k)) b6
  have toIdle : (s.pc i).owns = false → (s.pc i).owns2 = false → Inv n1 n2 (s.at i .idle) := by
    intro h1 h2
    exact x.move i _ h1 h2 rfl rfl (by simp) (fun c ino e => by cases e) (fun c k e => by cases e) (by simp)
  unfold Sys.go
  cases hp : s.pc i with
  | idle => exact x
  | held => exact x
  | dead => exact x
  | check b =>
    have h1 : (s.pc i).owns = false := by rw [hp]; rfl
    have h2 : (s.pc i).owns2 = false := by rw [hp]; rfl
    simp only
    cases hd : s.dir (s.name i b) with
    | none => exact toNext b h1 h2
    | some ino =>
      refine x.move i _ h1 h2 rfl rfl (by simp) ?_ (fun c k e => by cases e) (by simp)
      intro c k e
      injection e with _ e
      subst e
      cases b with
      | true =>
        simp only [Sys.name, if_true, x.name2] at hd
        obtain ⟨g1, j, g2, g3, g4⟩ := x.file2 ino hd
        exact ⟨g1, Or.inr ⟨j, g3, (fun e => by rw [e] at g2; cases g2), g4⟩⟩
      | false =>
        simp only [Sys.name, Bool.false_eq_true, if_false, x.name1] at hd
        obtain ⟨g1, j, g2⟩ := x.file1 ino hd
        refine ⟨g1, ?_⟩
        rcases g2 with ⟨-, g⟩ | ⟨-, g⟩ | ⟨g, g3, g4⟩
        · exact Or.inl g
        · exact Or.inl g
        · exact Or.inr ⟨j, g3, (fun e => by rw [e] at g; cases g), g4⟩
  | read b ino =>
    have h1 : (s.pc i).owns = false := by rw [hp]; rfl
    have h2 : (s.pc i).owns2 = false := by rw [hp]; rfl
    simp only
    split
    · rename_i hpos
      refine x.move i _ h1 h2 rfl rfl (by simp) (fun c k e => by cases e) ?_ (by simp)
      intro c k e
      injection e with _ e
      subst e
      obtain ⟨g1, g2⟩ := x.read i b ino hp
      rcases g2 with g2 | ⟨j, g2, g3, g4⟩
      · rw [g2, lockPid_nil] at hpos; omega
      · rw [g2, lockPid_fmt g4]; exact g3
    · split
      · exact toNext b h1 h2
      · exact toIdle h1 h2
  | kill b k =>
    have h1 : (s.pc i).owns = false := by rw [hp]; rfl
    have h2 : (s.pc i).owns2 = false := by rw [hp]; rfl
    simp only
    rw [if_neg (x.kill i b k hp)]
    exact toIdle h1 h2
  | stale b => exact absurd hp (x.stale i b)
  | create =>
    have h1 : (s.pc i).owns = false := by rw [hp]; rfl
    have h2 : (s.pc i).owns2 = false := by rw [hp]; rfl
    simp only [x.name1]
    cases hd : s.dir n1 with
    | some ino => exact toIdle h1 h2
    | none => exact x.create hi hp hd
  | write ino => exact x.write hp
  | undo =>
    simp only [x.name1]
    exact x.unlink1 (by rw [hp]; rfl) (by rw [hp]; exact fun h => by cases h) (Or.inr rfl)
  | link =>
    have hn2 := x.name2
    subst hn2
    simp only [x.name1]
    have got : ∀ b : Bool, (if b then Pc.flock else .held).owns1 = true ∧ (if b then Pc.flock else .held).owns2 = true := by
      intro b; cases b <;> exact ⟨rfl, rfl⟩
    have k1 : Inv n1 s.name2 (s.gotUucp i) :=
      x.keep i _ (by rw [hp]; rfl) (got _).1 (fun _ => (got _).2)
    cases hd : s.dir n1 with
    | none => exact k1
    | some ino =>
      cases hd2 : s.dir s.name2 with
      | some _ => exact k1
      | none => exact x.link2 hp hd (got (s.flk i)).1 (got (s.flk i)).2
  | flock =>
    simp only
    cases s.flock with
    | none => rw [at_flock]; exact (x.keep i .held (by rw [hp]; rfl) rfl (fun _ => rfl)).flock _
    | some _ => exact x.keep i .rm1 (by rw [hp]; rfl) rfl (fun _ => rfl)
  | rm1 =>
    simp only [x.name1]
    exact x.unlink1 (by rw [hp]; rfl) (fun _ => rfl) (Or.inl rfl)
  | rm2 =>
    have hn2 := x.name2
    subst hn2
    simp only
    have y := x.unlink2
    obtain ⟨a1, a2, a3, a4, a5, a6, a7, a8, a9, a10, a11, a12⟩ := y
    refine ⟨a1, a2, a3, a4, ?_, ?_, ?_, ?_, ?_, ?_, ?_, ?_⟩
    all_goals simp only [Sys.at]
    · intro j k e1 e2
      simp only [upd] at e1 e2
      split at e1
      · cases e1
      · split at e2
        · cases e2
        · exact a5 j k e1 e2
    · intro j e
      simp only [upd] at e
      split at e
      · cases e
      · exact a6 j e
    · intro ino e
      obtain ⟨b1, k, b2⟩ := a7 ino e
      refine ⟨b1, k, ?_⟩
      have : k ≠ i := by
        rintro rfl
        rcases b2 with ⟨b, -⟩ | ⟨b, -⟩ | ⟨b, -⟩
        · rw [b] at hp; cases hp
        · rw [b] at hp; cases hp
        · rw [hp] at b; cases b
      rw [upd_ne _ _ this]; exact b2
    · intro ino e; simp at e
    · intro j b ino e
      simp only [upd] at e
      split at e
      · cases e
      · obtain ⟨g1, g2⟩ := a9 j b ino e
        refine ⟨g1, g2.imp_right ?_⟩
        rintro ⟨k, g1, g2, g3⟩
        refine ⟨k, g1, ?_, g3⟩
        simp only [upd]
        split
        · simp
        · exact g2
    · intro j b k e
      simp only [upd] at e ⊢
      split at e
      · cases e
      · split
        · simp
        · exact a10 j b k e
    · intro j b
      simp only [upd]
      split
      · simp
      · exact a11 j b
    · intro j e
      simp only [upd] at e
      split at e
      · cases e
      · exact a12 j e
  | unflock =>
    simp only
    rw [at_flock]
    exact (toIdle (by rw [hp]; rfl) (by rw [hp]; rfl)).flock _

/-- The process that does something. -/
def Act.proc : Act → Nat
  | .start i | .go i | .fail i | .release i | .die i => i

/-- Processes end only when they have not got the device open and no other process is about to ask whether they live. -/
def Calm (s : Sys) : Act → Prop
  | .die i => s.pc i = .idle ∧ (∀ j b, s.pc j ≠ .kill b i) ∧ ∀ j b ino, s.pc j = .read b ino → s.data ino ≠ fmtPid i
  | _ => True

theorem Inv.step {n1 n2 : Nat} {s : Sys} (x : Inv n1 n2 s) {a : Act} (hi : a.proc < 10000000000) (hc : Calm s a) :
    Inv n1 n2 (s.step a) := by
  cases a with
  | start i =>
    simp only [Sys.step]
    split
    · rename_i h
      rw [x.uucp i, if_pos rfl]
      exact x.move i _ (by rw [h]; rfl) (by rw [h]; rfl) rfl rfl (by simp) (fun c ino e => by cases e)
        (fun c k e => by cases e) (by simp)
    · exact x
  | go i => exact x.go hi
  | fail i =>
    simp only [Sys.step]
    split
    · rename_i ino h; exact x.fail h
    · exact x
  | release i =>
    simp only [Sys.step]
    split
    · rename_i h
      rw [x.uucp i, if_pos rfl]
      exact x.keep i .rm1 (by rw [h]; rfl) rfl (fun _ => rfl)
    · exact x
  | die i =>
    simp only [Sys.step]
    rw [at_flock]
    exact (x.die hc.1 hc.2.1 hc.2.2).flock _

end Gensio.Slock
