import Verif.Lemmas.Seriallock

/-!
# Serial port locks: C48, C49

C48 holds while no process ends at a moment when another has read its number from a lock file or holds the lock, and all use
the same name for the device (`C48_partial`).  It fails when a process finds a stale lock while another takes it
(`C48_stale_violated`), also when no process ever crashes and the lock is only given back in between (`C48_exit_violated`),
when the device has two names (`C48_alias_violated`), and when a process that takes no such lock loses the race for `flock`
(`C48_flock_violated`).

C49 fails for a crash between making the lock file and writing it (`C49_violated`); for all others it holds (`C49_partial`).
-/

namespace Gensio.Slock

/-- The processes end only when calm, from a state on. -/
def CalmRun (s : Sys) : List Act → Prop
  | [] => True
  | a :: l => a.proc < 10000000000 ∧ Calm s a ∧ CalmRun (s.step a) l

theorem Inv.init (data : Nat → List UInt8) (flk : Nat → Bool) {n1 n2 : Nat} (h : n1 ≠ n2) :
    Inv n1 n2 (Sys.init data (fun _ => true) flk (fun _ => n1) n2) := by
  refine ⟨fun _ => rfl, fun _ => rfl, rfl, h, ?_, ?_, ?_, ?_, ?_, ?_, ?_, ?_⟩ <;> intros <;> simp_all [Sys.init, Pc.owns]

theorem Inv.run {n1 n2 : Nat} {s : Sys} (x : Inv n1 n2 s) {l : List Act} (h : CalmRun s l) : Inv n1 n2 (s.run l) := by
  induction l generalizing s with
  | nil => exact x
  | cons a l ih => exact ih (x.step h.1 h.2.1) h.2.2

/-- **C48**, when processes end calmly, all take this lock and use the same name: at most one has it.  What is missing is
processes that end at any time, other names of the device and processes that take only `flock`; C48 is false for these. -/
theorem C48_partial (data : Nat → List UInt8) (flk : Nat → Bool) (n1 n2 : Nat) (hn : n1 ≠ n2) (l : List Act)
    (hl : CalmRun (Sys.init data (fun _ => true) flk (fun _ => n1) n2) l) (i j : Nat)
    (hi : ((Sys.init data (fun _ => true) flk (fun _ => n1) n2).run l).pc i = .held)
    (hj : ((Sys.init data (fun _ => true) flk (fun _ => n1) n2).run l).pc j = .held) : i = j := by
  have x := (Inv.init data flk hn).run hl
  exact x.uniq i j (by rw [hi]; rfl) (by rw [hj]; rfl)

/-- What a process writes into the lock file is read back as its number. -/
theorem C48_pid (n : Nat) (h : n < 10000000000) : lockPid (fmtPid n) = n := lockPid_fmt h

example : lockPid (fmtPid 4711) = 4711 ∧ fmtPid 4711 = "      4711\n".toUTF8.toList := by decide +kernel

/-- The common case. -/
def std : Sys := Sys.init (fun _ => []) (fun _ => true) (fun _ => false) (fun _ => 1) 2

/-- `n` calls of a process. -/
def gos (i n : Nat) : List Act := List.replicate n (.go i)

/-- Process 1 takes the lock, process 2 does not get it, process 1 gives it back and ends, process 2 gets it. -/
def calmRun : List Act := .start 1 :: gos 1 5 ++ .start 2 :: gos 2 3 ++ .release 1 :: gos 1 3 ++ .die 1 :: .start 2 :: gos 2 5

example : (std.run (.start 1 :: gos 1 5 ++ .start 2 :: gos 2 3)).pc 1 = .held
    ∧ (std.run (.start 1 :: gos 1 5 ++ .start 2 :: gos 2 3)).pc 2 = .idle
    ∧ (std.run calmRun).pc 1 = .dead ∧ (std.run calmRun).pc 2 = .held := by decide +kernel

/-- **C48 is false when a holder has crashed**: processes 2 and 3 see the lock of the dead process 1; 3 removes it and takes
the lock; 2 removes the lock file of 3 and takes the lock, too. -/
theorem C48_stale_violated : ∃ l, (std.run l).holds 2 ∧ (std.run l).holds 3 := by
  refine ⟨.start 1 :: gos 1 5 ++ .die 1 :: .start 2 :: gos 2 3 ++ .start 3 :: gos 3 9 ++ gos 2 5
    ++ gos 3 2, ?_⟩
  unfold Sys.holds
  decide +kernel

/-- **C48 is false without any crash**: process 2 reads the number of process 1, which then gives the lock back and ends;
process 3 makes the lock file; 2 finds that 1 is gone, removes the file of 3, and takes the lock as well. -/
theorem C48_exit_violated : ∃ l l' : List Act, (std.run l).pc 1 = .idle ∧ (std.run (l ++ .die 1 :: l')).holds 2
    ∧ (std.run (l ++ .die 1 :: l')).holds 3 ∧ (∀ i, .die i ∉ l) ∧ ∀ i, .die i ∉ l' := by
  refine ⟨.start 1 :: gos 1 5 ++ .start 2 :: gos 2 2 ++ .release 1 :: gos 1 3, .start 3 :: gos 3 3 ++ gos 2 6 ++ gos 3 2,
    ?_, ?_, ?_, ?_, ?_⟩
  · decide +kernel
  · unfold Sys.holds; decide +kernel
  · unfold Sys.holds; decide +kernel
  · simp [gos]
  · simp [gos]

/-- **C48 is false when the device has two names**, as `/dev/ttyS0` and a link to it: both processes find no lock file, make
the first one under the name they use, and a failure to make the second one is only logged. -/
theorem C48_alias_violated : ∃ l, (∀ i, .die i ∉ l) ∧
    ((Sys.init (fun _ => []) (fun _ => true) (fun _ => false) (fun i => if i = 1 then 1 else 3) 2).run l).holds 1 ∧
    ((Sys.init (fun _ => []) (fun _ => true) (fun _ => false) (fun i => if i = 1 then 1 else 3) 2).run l).holds 2 := by
  refine ⟨.start 1 :: .start 2 :: gos 1 2 ++ gos 2 2 ++ gos 1 3 ++ gos 2 3, ?_, ?_, ?_⟩
  · simp [gos]
  · unfold Sys.holds; decide +kernel
  · unfold Sys.holds; decide +kernel

/-- **C48 is false when a process takes only `flock`**: process 1 has both locks; process 2 takes no UUCP lock, does not get
`flock` and removes the UUCP lock of process 1, `serial_mk_lock`, :346-350; process 3, which does not use `flock`, takes it. -/
theorem C48_flock_violated : ∃ l, (∀ i, .die i ∉ l) ∧
    ((Sys.init (fun _ => []) (fun i => i != 2) (fun i => i != 3) (fun _ => 1) 2).run l).holds 1 ∧
    ((Sys.init (fun _ => []) (fun i => i != 2) (fun i => i != 3) (fun _ => 1) 2).run l).holds 3 := by
  refine ⟨.start 1 :: gos 1 6 ++ .start 2 :: gos 2 4 ++ .start 3 :: gos 3 5, ?_, ?_, ?_⟩
  · simp [gos]
  · unfold Sys.holds; decide +kernel
  · unfold Sys.holds; decide +kernel

/-- Whoever uses `flock` and has opened the device has it. -/
structure FHold (s : Sys) : Prop where
  held : ∀ i, s.flk i = true → s.pc i = .held → s.flock = some i

theorem FHold.step {s : Sys} (x : FHold s) (a : Act) : FHold (s.step a) := by
  obtain ⟨x⟩ := x
  constructor
  cases a with
  | start i =>
    simp only [Sys.step]
    split
    · intro j e e'; have := x j e; simp only [Sys.at, upd] at e e' ⊢; grind
    · exact x
  | release i =>
    simp only [Sys.step]
    split
    · intro j e e'; have := x j e; simp only [Sys.at, upd] at e e' ⊢; grind
    · exact x
  | fail i =>
    simp only [Sys.step]
    split
    · intro j e e'; have := x j e; simp only [Sys.at, upd] at e e' ⊢; grind
    · exact x
  | die i =>
    intro j e e'
    have := x j e
    simp only [Sys.step, Sys.at, upd] at e' ⊢
    grind
  | go i =>
    simp only [Sys.step, Sys.go]
    split
    all_goals try split
    all_goals try split
    all_goals first
      | exact x
      | (intro j e e'; have := x j e; simp only [Sys.at, Sys.gotUucp, nextCheck, upd] at e e' ⊢; grind)

/-- With `flock`, the default, no two processes open the device, whatever happens to the UUCP lock. -/
theorem C48_flock (data : Nat → List UInt8) (uucp flk : Nat → Bool) (name1 : Nat → Nat) (n2 : Nat) (l : List Act) (i j : Nat)
    (fi : flk i = true) (fj : flk j = true) (hi : ((Sys.init data uucp flk name1 n2).run l).pc i = .held)
    (hj : ((Sys.init data uucp flk name1 n2).run l).pc j = .held) : i = j := by
  have run : ∀ (l : List Act) (s : Sys), FHold s → FHold (s.run l) := by
    intro l
    induction l with
    | nil => exact fun _ x => x
    | cons a l ih => exact fun s x => ih _ (x.step a)
  have flks : ∀ (a : Act) (s : Sys), (s.step a).flk = s.flk := by
    intro a s
    cases a with
    | go i => simp only [Sys.step, Sys.go]; split <;> (try split) <;> (try split) <;> rfl
    | _ => simp only [Sys.step] <;> (try split) <;> rfl
  have flkr : ∀ (l : List Act) (s : Sys), (s.run l).flk = s.flk := by
    intro l
    induction l with
    | nil => exact fun _ => rfl
    | cons a l ih => exact fun s => (ih _).trans (flks a s)
  have x := run l _ (⟨fun k _ e => by cases e⟩ : FHold (Sys.init data uucp flk name1 n2))
  have a := x.held i (by rw [flkr]; exact fi) hi
  have b := x.held j (by rw [flkr]; exact fj) hj
  exact Option.some.inj (a.symm.trans b)

/-! ## C49 -/

/-- The first lock file is there and empty, and nobody has part in it. -/
structure Stuck (n1 n2 ino : Nat) (s : Sys) : Prop where
  uucp : ∀ i, s.uucp i = true
  name1 : ∀ i, s.name1 i = n1
  name2 : s.name2 = n2
  file1 : s.dir n1 = some ino
  empty : s.data ino = []
  file2 : s.dir n2 = none
  pc : ∀ i, s.pc i = .idle ∨ (∃ b, s.pc i = .check b) ∨ s.pc i = .read false ino ∨ s.pc i = .create ∨ s.pc i = .dead

theorem Stuck.at {n1 n2 ino : Nat} {s : Sys} (x : Stuck n1 n2 ino s) (i : Nat) (p : Pc)
    (h : p = .idle ∨ (∃ b, p = .check b) ∨ p = .read false ino ∨ p = .create ∨ p = .dead) :
    Stuck n1 n2 ino (s.at i p) := by
  obtain ⟨a1, a2, a3, a4, a5, a6, a7⟩ := x
  refine ⟨a1, a2, a3, a4, a5, a6, fun j => ?_⟩
  simp only [Sys.at, upd]
  split
  · exact h
  · exact a7 j

theorem Stuck.step {n1 n2 ino : Nat} {s : Sys} (x : Stuck n1 n2 ino s) (a : Act) : Stuck n1 n2 ino (s.step a) := by
  cases a with
  | start i =>
    simp only [Sys.step]
    split
    · rw [x.uucp i, if_pos rfl]; exact x.at i _ (Or.inr (Or.inl ⟨_, rfl⟩))
    · exact x
  | release i =>
    simp only [Sys.step]
    split
    · rename_i h; rcases x.pc i with e | ⟨b, e⟩ | e | e | e <;> rw [e] at h <;> cases h
    · exact x
  | fail i =>
    simp only [Sys.step]
    split
    · rename_i k h; rcases x.pc i with e | ⟨b, e⟩ | e | e | e <;> rw [e] at h <;> cases h
    · exact x
  | die i =>
    obtain ⟨a1, a2, a3, a4, a5, a6, a7⟩ := x.at i .dead (by simp)
    exact ⟨a1, a2, a3, a4, a5, a6, a7⟩
  | go i =>
    simp only [Sys.step, Sys.go]
    rcases x.pc i with e | ⟨b, e⟩ | e | e | e <;> rw [e] <;> simp only
    · exact x
    · cases b with
      | true =>
        simp only [Sys.name, if_true, x.name2, x.file2]
        exact x.at i _ (by simp [nextCheck])
      | false =>
        simp only [Sys.name, Bool.false_eq_true, if_false, x.name1, x.file1]
        exact x.at i _ (by simp)
    · rw [x.empty, lockPid_nil]
      exact x.at i _ (by simp [nextCheck])
    · simp only [x.name1, x.file1]
      exact x.at i _ (by simp)
    · exact x

theorem Stuck.run {n1 n2 ino : Nat} {s : Sys} (x : Stuck n1 n2 ino s) (l : List Act) : Stuck n1 n2 ino (s.run l) := by
  induction l generalizing s with
  | nil => exact x
  | cons a l ih => exact ih (x.step a)

/-- **C49 is false for a crash between making the lock file and writing it**: whatever happens then, no process gets the
lock again. -/
theorem C49_violated (data : Nat → List UInt8) (flk : Nat → Bool) (n1 n2 : Nat) (hn : n1 ≠ n2) (i : Nat) (l : List Act)
    (j : Nat) : ((Sys.init data (fun _ => true) flk (fun _ => n1) n2).run
      (.start i :: .go i :: .go i :: .go i :: .die i :: l)).pc j ≠ .held := by
  have x : Stuck n1 n2 0 ((Sys.init data (fun _ => true) flk (fun _ => n1) n2).run
      (.start i :: .go i :: .go i :: .go i :: .die i :: [])) := by
    simp only [Sys.run, List.foldl, Sys.step, Sys.init, Sys.go, Sys.at, upd_same, if_true, Sys.name, Bool.false_eq_true,
      if_false, nextCheck]
    refine ⟨fun _ => rfl, fun _ => rfl, rfl, by simp, by simp, ?_, ?_⟩
    · simp [upd, Ne.symm hn]
    · intro k
      simp only [upd]
      split <;> simp
  have y := x.run l
  have : ∀ (s : Sys) l' , s.run (.start i :: .go i :: .go i :: .go i :: .die i :: l')
      = (s.run (.start i :: .go i :: .go i :: .go i :: .die i :: [])).run l' := fun _ _ => rfl
  rw [this]
  intro h
  rcases y.pc j with e | ⟨b, e⟩ | e | e | e <;> rw [e] at h <;> cases h

/-- Who has `flock`. -/
structure FInv (s : Sys) : Prop where
  pc : ∀ i, s.flock = some i → s.pc i = .held ∨ s.pc i = .rm1 ∨ s.pc i = .rm2 ∨ s.pc i = .unflock

theorem FInv.step {s : Sys} (x : FInv s) (a : Act) : FInv (s.step a) := by
  obtain ⟨x⟩ := x
  constructor
  cases a with
  | start i =>
    simp only [Sys.step]
    split
    · intro j e; have := x j e; simp only [Sys.at, upd]; grind
    · exact x
  | release i =>
    simp only [Sys.step]
    split
    · intro j e; have := x j e; simp only [Sys.at, upd]; grind
    · exact x
  | fail i =>
    simp only [Sys.step]
    split
    · intro j e; have := x j e; simp only [Sys.at, upd]; grind
    · exact x
  | die i =>
    intro j e
    simp only [Sys.step, Sys.at, upd] at e ⊢
    grind
  | go i =>
    simp only [Sys.step, Sys.go]
    split
    all_goals try split
    all_goals try split
    all_goals first
      | exact x
      | (intro j e; simp only [Sys.at, Sys.gotUucp, upd] at e ⊢; grind)

theorem FInv.run {s : Sys} (x : FInv s) (l : List Act) : FInv (s.run l) := by
  induction l generalizing s with
  | nil => exact x
  | cons a l ih => exact ih (x.step a)

/-- A lock file that is absent or of a dead process. -/
def Stale (s : Sys) (name : Nat) : Prop :=
  ∀ ino, s.dir name = some ino → ∃ k, s.data ino = fmtPid k ∧ s.pc k = .dead ∧ 0 < k ∧ k < 10000000000

/-- Calls of `j` alone. -/
def Alone (j : Nat) (s t : Sys) : Prop := ∃ n, t = s.run (gos j n)

theorem Alone.refl (j : Nat) (s : Sys) : Alone j s s := ⟨0, rfl⟩

theorem Alone.next {j : Nat} {s t : Sys} (h : Alone j (s.go j) t) : Alone j s t := by
  obtain ⟨n, rfl⟩ := h
  exact ⟨n + 1, rfl⟩

theorem alone_check {n1 n2 j : Nat} {s : Sys} (b : Bool) (hp : s.pc j = .check b) (hs : Stale s (s.name j b))
    (hn : s.name1 j = n1) (hn2 : s.name2 = n2) (hne : n1 ≠ n2) (k : Sys → Prop)
    (h : ∀ t : Sys, t.pc j = nextCheck b → t.dir (s.name j b) = none → (∀ n, n ≠ s.name j b → t.dir n = s.dir n) →
      t.data = s.data → (∀ i, i ≠ j → t.pc i = s.pc i) → t.flock = s.flock → t.uucp = s.uucp → t.flk = s.flk →
      t.name1 = s.name1 → t.name2 = s.name2 → ∃ u, Alone j t u ∧ k u) : ∃ u, Alone j s u ∧ k u := by
  have out : ∀ {t : Sys}, (∃ u, Alone j (t.go j) u ∧ k u) → ∃ u, Alone j t u ∧ k u :=
    fun ⟨u, a, b⟩ => ⟨u, a.next, b⟩
  apply out
  cases hd : s.dir (s.name j b) with
  | none =>
    simp only [Sys.go, hp, hd]
    exact h _ (by simp [Sys.at]) hd (fun _ _ => rfl) rfl (fun i e => by simp [Sys.at, upd, e]) rfl rfl rfl rfl rfl
  | some ino =>
    obtain ⟨q, h1, h2, h3, h4⟩ := hs ino hd
    have hqj : q ≠ j := by rintro rfl; rw [hp] at h2; cases h2
    have e1 : s.go j = s.at j (.read b ino) := by simp only [Sys.go, hp, hd]
    rw [e1]
    apply out
    have e2 : (s.at j (.read b ino)).go j = (s.at j (.read b ino)).at j (.kill b q) := by
      simp only [Sys.go, Sys.at, upd_same, h1, lockPid_fmt h4]
      rw [if_pos (by omega)]
      rfl
    rw [e2]
    apply out
    have e3 : ((s.at j (.read b ino)).at j (.kill b q)).go j
        = ((s.at j (.read b ino)).at j (.kill b q)).at j (.stale b) := by
      have e : ((s.at j (.read b ino)).at j (.kill b q)).pc q = .dead := by simp [Sys.at, upd, hqj, h2]
      have e' : ((s.at j (.read b ino)).at j (.kill b q)).pc j = .kill b q := by simp [Sys.at]
      simp only [Sys.go, e', if_pos e]
    rw [e3]
    apply out
    simp only [Sys.go, Sys.at, upd_same]
    refine h _ (by simp) ?_ ?_ rfl (fun i e => by simp [upd, e]) rfl rfl rfl rfl rfl
    · simp [Sys.name, upd]
    · intro n e; simp only [Sys.name] at e ⊢; exact upd_ne _ _ e

/-- A process that is alone gets the lock when the lock files are absent or of dead processes. -/
theorem alone_gets {n1 n2 j : Nat} {s : Sys} (hp : s.pc j = .idle) (hu : s.uucp j = true) (hn : s.name1 j = n1)
    (hn2 : s.name2 = n2) (hne : n1 ≠ n2) (h1 : Stale s n1) (h2 : Stale s n2) (hf : s.flock = none) :
    ∃ n, (s.run (.start j :: gos j n)).holds j := by
  have key : ∃ u, Alone j (s.step (.start j)) u ∧ u.holds j := by
    have out : ∀ {t : Sys}, (∃ u, Alone j (t.go j) u ∧ u.holds j) → ∃ u, Alone j t u ∧ u.holds j :=
      fun ⟨u, a, b⟩ => ⟨u, a.next, b⟩
    have e0 : s.step (.start j) = s.at j (.check false) := by simp [Sys.step, hp, hu]
    rw [e0]
    refine alone_check (n1 := n1) (n2 := n2) (s := s.at j (.check false)) false (by simp [Sys.at]) ?_ hn hn2 hne
      (fun u => u.holds j) ?_
    · simp only [Sys.name, Bool.false_eq_true, if_false, Sys.at, hn]
      intro ino e
      obtain ⟨k, g1, g2, g3⟩ := h1 ino e
      refine ⟨k, g1, ?_, g3⟩
      have : k ≠ j := by rintro rfl; rw [hp] at g2; cases g2
      simp only [upd, if_neg this]; exact g2
    · intro t t1 t2 t3 t4 t5 t6 t7 t8 t9 t10
      simp only [Sys.name, Bool.false_eq_true, if_false, Sys.at, hn] at t2 t3 t4 t5 t6 t7 t8 t9 t10
      refine alone_check (n1 := n1) (n2 := n2) true t1 ?_ (by rw [t9]; exact hn) (by rw [t10]; exact hn2) hne
        (fun u => u.holds j) ?_
      · simp only [Sys.name, if_true, t10, hn2]
        intro ino e
        rw [t3 n2 (Ne.symm hne)] at e
        obtain ⟨k, g1, g2, g3⟩ := h2 ino e
        refine ⟨k, by rw [t4]; exact g1, ?_, g3⟩
        have : k ≠ j := by rintro rfl; rw [hp] at g2; cases g2
        rw [t5 k this]; simp only [upd, if_neg this]; exact g2
      · intro r r1 r2 r3 r4 r5 r6 r7 r8 r9 r10
        simp only [Sys.name, if_true, t10, hn2] at r2 r3 r10
        have r11 : r.dir n1 = none := by rw [r3 n1 hne]; exact t2
        have r12 : r.name1 j = n1 := by rw [r9, t9]; exact hn
        have r13 : r.flock = none := by rw [r6, t6]; exact hf
        have r14 : r.uucp j = true := by rw [r7, t7]; exact hu
        have a1 : r.pc j = .create := r1
        apply out
        simp only [Sys.go, a1, r12, r11]
        apply out
        simp only [Sys.go, Sys.at, upd_same]
        apply out
        simp only [Sys.go, upd_same, r12, r10]
        simp only [upd_same, upd_ne _ _ (Ne.symm hne), r2, Sys.gotUucp, Sys.at]
        cases hk : r.flk j with
        | false =>
          refine ⟨_, Alone.refl j _, ?_, r14⟩
          simp
        | true =>
          apply out
          simp only [Sys.go, if_true, upd_same, r13]
          exact ⟨_, Alone.refl j _, by simp [Sys.at], r14⟩
  obtain ⟨u, ⟨n, rfl⟩, h⟩ := key
  exact ⟨n, h⟩

/-- **C49** for all other crash points: when process `i` ends at any point, except between making the lock file and writing
it, and no other process is taking or holding the lock, then a process that wants the lock gets it.  Missing is the crash
at that point, for which C49 is false, and the use of the number of the dead process for another one. -/
theorem C49_partial (data : Nat → List UInt8) (flk : Nat → Bool) (n1 n2 : Nat) (hn : n1 ≠ n2) (l : List Act)
    (s : Sys) (hs : s = (Sys.init data (fun _ => true) flk (fun _ => n1) n2).run l)
    (hl : CalmRun (Sys.init data (fun _ => true) flk (fun _ => n1) n2) l) (i j : Nat) (hij : i ≠ j) (hi : 0 < i)
    (hj : s.pc j = .idle) (ho : ∀ k, k ≠ i → s.pc k = .idle ∨ s.pc k = .dead)
    (hw : ∀ ino, s.pc i ≠ .write ino) (hu : s.pc i ≠ .undo) :
    ∃ n, (s.run (.die i :: .start j :: gos j n)).holds j := by
  have x : Inv n1 n2 s := by rw [hs]; exact (Inv.init data flk hn).run hl
  have y : FInv s := by rw [hs]; exact FInv.run ⟨fun k e => by cases e⟩ l
  refine alone_gets (n1 := n1) (n2 := n2) (s := s.step (.die i)) ?_ (x.uucp j) (x.name1 j) x.name2 hn ?_ ?_ ?_
  · simp only [Sys.step, Sys.at, upd, if_neg (Ne.symm hij)]; exact hj
  · intro ino e
    obtain ⟨-, k, h⟩ := x.file1 ino e
    have hk : k = i := by
      apply Classical.byContradiction; intro hk
      rcases ho k hk with e | e <;> rw [e] at h <;> rcases h with ⟨h, -⟩ | ⟨h, -⟩ | ⟨h, -⟩ <;> cases h
    subst hk
    rcases h with ⟨h, -⟩ | ⟨h, -⟩ | ⟨-, h, h'⟩
    · exact absurd h (hw ino)
    · exact absurd h hu
    · exact ⟨k, h, by simp [Sys.step, Sys.at], hi, h'⟩
  · intro ino e
    obtain ⟨-, k, h, h2, h3⟩ := x.file2 ino e
    have hk : k = i := by
      apply Classical.byContradiction; intro hk
      rcases ho k hk with e | e <;> rw [e] at h <;> cases h
    subst hk
    exact ⟨k, h2, by simp [Sys.step, Sys.at], hi, h3⟩
  · simp only [Sys.step, Sys.at]
    split
    · rfl
    · rename_i hne
      cases hf : s.flock with
      | none => rfl
      | some k =>
        have hk : k ≠ i := by rintro rfl; exact hne hf
        rcases ho k hk with e | e <;> rcases y.pc k hf with h | h | h | h <;> rw [e] at h <;> cases h

/-- A crash of the holder, and one after the first lock file has been removed. -/
example : (std.run (.start 1 :: gos 1 5 ++ .die 1 :: .start 2 :: gos 2 11)).pc 2 = .held
    ∧ (std.run (.start 1 :: gos 1 5 ++ .release 1 :: .go 1 :: .die 1 :: .start 2 :: gos 2 8)).pc 2 = .held := by
  decide +kernel

end Gensio.Slock
