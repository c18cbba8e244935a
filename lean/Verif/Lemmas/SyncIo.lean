import Verif.Model.SyncIo

/-!
# Synchronous reads and writes: invariants
-/

namespace Gensio.SyncIo

@[simp] theorem upd_same {α : Type} (f : Nat → α) (k : Nat) (v : α) : upd f k v k = v := by simp [upd]
theorem upd_ne {α : Type} (f : Nat → α) {k n : Nat} (v : α) (h : n ≠ k) : upd f k v n = f n := by simp [upd, h]

/-- A read that waited: the thread and what it returned. -/
structure Rd where
  id : Nat
  res : Option (List UInt8)
  deriving DecidableEq

/-- A write that waited: the thread, its data and what it returned, the count if there was no error. -/
structure Wr where
  id : Nat
  data : List UInt8
  res : Option (Option Nat)
  deriving DecidableEq

/-- The reads, in the order in which they were called. -/
def rdStep (l : List Rd) : Act × Ev → List Rd
  | (.readS i _, .silent) => l ++ [⟨i, none⟩]
  | (.readWake i _, .ret _ _ d) => l.map fun r => if r.id = i ∧ r.res = none then ⟨i, some d⟩ else r
  | _ => l

def reads (h : Hist) : List Rd := h.foldl rdStep []

/-- What was taken from the gensio. -/
def consumed (h : Hist) : List UInt8 := h.flatMap fun x =>
  match x with
  | (.event d, .consumed n) => d.take n
  | _ => []

/-- The writes, in the order in which they were called. -/
def wrStep (l : List Wr) : Act × Ev → List Wr
  | (.writeS i d, .silent) => l ++ [⟨i, d, none⟩]
  | (.writeWake i _, .ret _ c _) => l.map fun r => if r.id = i ∧ r.res = none then ⟨i, r.data, some c⟩ else r
  | _ => l

def writes (h : Hist) : List Wr := h.foldl wrStep []

/-- What was passed to the gensio. -/
def passed (h : Hist) : List UInt8 := h.flatMap fun x =>
  match x with
  | (.ready _, .passed d) => d
  | _ => []

/-- What is waiting and what is in the lists. -/
structure Base (s : Sync) : Prop where
  rd : ∀ i, i ∈ s.readops → s.call i = .read ∧ (s.op i).queued = true ∧ (s.op i).err = 0
  wr : ∀ i, i ∈ s.writeops → (∃ n, s.call i = .write n) ∧ (s.op i).queued = true ∧ (s.op i).err = 0
  rq : ∀ i, s.call i = .read → (s.op i).queued = true → i ∈ s.readops
  wq : ∀ i n, s.call i = .write n → (s.op i).queued = true → i ∈ s.writeops
  rn : s.readops.Nodup
  wn : s.writeops.Nodup

theorem setErr_ne {s : Sync} {e : Nat} (h : e ≠ 0) : (s.setErr e).err ≠ 0 := by
  unfold Sync.setErr; split
  · exact h
  · assumption

theorem setErr_frame (s : Sync) (e : Nat) : (s.setErr e).op = s.op ∧ (s.setErr e).call = s.call
    ∧ (s.setErr e).readops = s.readops ∧ (s.setErr e).writeops = s.writeops := by
  unfold Sync.setErr; split <;> exact ⟨rfl, rfl, rfl, rfl⟩

theorem Base.flush {s : Sync} (x : Base s) : Base s.flush := by
  refine ⟨?_, ?_, ?_, ?_, ?_, ?_⟩
  · intro i h; cases h
  · intro i h; cases h
  · intro i h1 h2
    simp only [Sync.flush] at h1 h2
    split at h2
    · cases h2
    · rename_i hn; exact absurd (Or.inl (x.rq i h1 h2)) hn
  · intro i n h1 h2
    simp only [Sync.flush] at h1 h2
    split at h2
    · cases h2
    · rename_i hn; exact absurd (Or.inr (x.wq i n h1 h2)) hn
  · simp [Sync.flush]
  · simp [Sync.flush]

/-- What the loop of the read event leaves alone. -/
theorem readLoop_frame (buf : List UInt8) (n : Nat) (l : List Nat) (s : Sync) (d : Nat) :
    (s.readLoop buf n l d).1.call = s.call ∧ (s.readLoop buf n l d).1.writeops = s.writeops
    ∧ (s.readLoop buf n l d).1.err = s.err
    ∧ (∀ i, i ∉ l → (s.readLoop buf n l d).1.op i = s.op i)
    ∧ (n ≠ 0 → (s.readLoop buf n l d).1.readops = [] ∧ ∀ i, i ∈ l → ((s.readLoop buf n l d).1.op i).queued = false) := by
  induction l generalizing s d with
  | nil => refine ⟨rfl, rfl, rfl, fun _ _ => rfl, fun _ => ⟨rfl, fun i h => by cases h⟩⟩
  | cons i l ih =>
    unfold Sync.readLoop
    split
    · rename_i h0; exact ⟨rfl, rfl, rfl, fun _ _ => rfl, fun h => absurd h0 h⟩
    · simp only
      obtain ⟨a1, a2, a3, a4, a5⟩ := ih { s with op := upd s.op i { s.op i with buf := buf.take (min d (s.op i).len), len := min d (s.op i).len, queued := false } } (d - min d (s.op i).len)
      refine ⟨a1, a2, a3, ?_, ?_⟩
      · intro j hj
        rw [List.mem_cons, not_or] at hj
        rw [a4 j hj.2]
        exact upd_ne _ _ hj.1
      · intro hn
        obtain ⟨b1, b2⟩ := a5 hn
        refine ⟨b1, ?_⟩
        intro j hj
        by_cases h : j ∈ l
        · exact b2 j h
        · rw [a4 j h]
          have : j = i := by simpa [h] using hj
          subst this
          simp

theorem Base.event {s : Sync} (x : Base s) (d : List UInt8) : Base (s.event d).1 := by
  unfold Sync.event
  split
  · obtain ⟨a1, a2, a3, a4, a5, a6⟩ := x; exact ⟨a1, a2, a3, a4, a5, a6⟩
  · simp only
    obtain ⟨f1, f2, f3, f4, f5⟩ := readLoop_frame d d.length s.readops s d.length
    have key : Base (s.readLoop d d.length s.readops d.length).1 := by
      by_cases hd : d.length = 0
      · have : (s.readLoop d d.length s.readops d.length).1 = s := by
          rw [hd]
          cases h : s.readops with
          | nil => simp only [Sync.readLoop]; rw [← h]
          | cons i l => simp only [Sync.readLoop, if_true]; rw [← h]
        rw [this]; exact x
      · obtain ⟨g1, g2⟩ := f5 hd
        refine ⟨?_, ?_, ?_, ?_, ?_, ?_⟩
        · rw [g1]; intro i h; cases h
        · rw [f1, f2]
          intro i h
          obtain ⟨⟨n, h1⟩, h2⟩ := x.wr i h
          have : i ∉ s.readops := fun h => by rw [(x.rd i h).1] at h1; cases h1
          rw [f4 i this]
          exact x.wr i h
        · rw [f1]
          intro i h1 h2
          by_cases h : i ∈ s.readops
          · rw [g2 i h] at h2; cases h2
          · rw [f4 i h] at h2; exact absurd (x.rq i h1 h2) h
        · rw [f1, f2]
          intro i n h1 h2
          have : i ∉ s.readops := fun h => by rw [(x.rd i h).1] at h1; cases h1
          rw [f4 i this] at h2
          exact x.wq i n h1 h2
        · rw [g1]; exact List.nodup_nil
        · rw [f2]; exact x.wn
    split
    · obtain ⟨a1, a2, a3, a4, a5, a6⟩ := key; exact ⟨a1, a2, a3, a4, a5, a6⟩
    · exact key

theorem Base.writeLoop {s : Sync} {l : List Nat} {ans : List Ans} (x : Base { s with writeops := l }) :
    Base (s.writeLoop l ans).1 := by
  induction l generalizing s ans with
  | nil => exact x
  | cons i l ih =>
    unfold Sync.writeLoop
    cases ans with
    | nil => exact x
    | cons a ans =>
      cases a with
      | err e =>
        simp only
        apply Base.flush
        have := setErr_frame { s with writeops := i :: l } e
        obtain ⟨a1, a2, a3, a4⟩ := this
        obtain ⟨b1, b2, b3, b4, b5, b6⟩ := x
        refine ⟨?_, ?_, ?_, ?_, ?_, ?_⟩
        · rw [a1, a2, a3]; exact b1
        · rw [a1, a2, a4]; exact b2
        · rw [a1, a2, a3]; exact b3
        · rw [a1, a2, a4]; exact b4
        · rw [a3]; exact b5
        · rw [a4]; exact b6
      | took n =>
        simp only
        obtain ⟨⟨m, hc⟩, hq, he⟩ := x.wr i (by simp)
        have hn : i ∉ s.readops := fun h => by have := (x.rd i h).1; rw [this] at hc; cases hc
        obtain ⟨b1, b2, b3, b4, b5, b6⟩ := x
        simp only at b1 b2 b3 b4 b5 b6 hc hq he
        split
        · apply ih
          refine ⟨?_, ?_, ?_, ?_, b5, (List.nodup_cons.mp b6).2⟩
          · intro j h
            simp only at h ⊢
            rw [upd_ne _ _ (show j ≠ i from fun e => hn (e ▸ h))]
            exact b1 j h
          · intro j h
            simp only at h ⊢
            rw [upd_ne _ _ (show j ≠ i from fun e => (List.nodup_cons.mp b6).1 (e ▸ h))]
            exact b2 j (List.mem_cons_of_mem _ h)
          · intro j h1 h2
            simp only at h1 h2 ⊢
            have : j ≠ i := by rintro rfl; rw [hc] at h1; cases h1
            rw [upd_ne _ _ this] at h2
            exact b3 j h1 h2
          · intro j k h1 h2
            simp only at h1 h2 ⊢
            have : j ≠ i := by rintro rfl; simp at h2
            rw [upd_ne _ _ this] at h2
            have := b4 j k h1 h2
            simpa [‹j ≠ i›] using this
        · refine ⟨?_, ?_, ?_, ?_, b5, b6⟩
          · intro j h
            simp only at h ⊢
            rw [upd_ne _ _ (show j ≠ i from fun e => hn (e ▸ h))]
            exact b1 j h
          · intro j h
            simp only at h ⊢
            by_cases hj : j = i
            · subst hj; rw [upd_same]; exact ⟨⟨m, hc⟩, hq, he⟩
            · rw [upd_ne _ _ hj]; exact b2 j h
          · intro j h1 h2
            simp only at h1 h2 ⊢
            have : j ≠ i := by rintro rfl; rw [hc] at h1; cases h1
            rw [upd_ne _ _ this] at h2
            exact b3 j h1 h2
          · intro j k h1 h2
            simp only at h1 h2 ⊢
            by_cases hj : j = i
            · subst hj; simp
            · rw [upd_ne _ _ hj] at h2; exact b4 j k h1 h2

theorem Base.step {s t : Sync} {a : Act} {e : Ev} (x : Base s) (h : s.step a = some (t, e)) : Base t := by
  cases a with
  | event d =>
    simp only [Sync.step, Option.some.injEq] at h
    have := x.event d; rw [h] at this; exact this
  | eventErr k =>
    simp only [Sync.step] at h
    split at h
    · cases h
    · simp only [Option.some.injEq, Prod.mk.injEq] at h
      rw [← h.1]
      apply Base.flush
      obtain ⟨a1, a2, a3, a4⟩ := setErr_frame s k
      obtain ⟨b1, b2, b3, b4, b5, b6⟩ := x
      exact ⟨by simp only [a1, a2, a3]; exact b1, by simp only [a1, a2, a4]; exact b2, by simp only [a1, a2, a3]; exact b3,
        by simp only [a1, a2, a4]; exact b4, by simp only [a3]; exact b5, by simp only [a4]; exact b6⟩
  | close =>
    simp only [Sync.step, Option.some.injEq, Prod.mk.injEq] at h
    rw [← h.1]
    apply Base.flush
    obtain ⟨a1, a2, a3, a4⟩ := setErr_frame s eLocalClosed
    obtain ⟨b1, b2, b3, b4, b5, b6⟩ := x
    exact ⟨by simp only [a1, a2, a3]; exact b1, by simp only [a1, a2, a4]; exact b2, by simp only [a1, a2, a3]; exact b3,
      by simp only [a1, a2, a4]; exact b4, by simp only [a3]; exact b5, by simp only [a4]; exact b6⟩
  | ready ans =>
    simp only [Sync.step] at h
    split at h
    · cases h
    · simp only [Option.some.injEq, Sync.ready] at h
      split at h
      · obtain ⟨rfl, -⟩ := Prod.mk.inj h
        obtain ⟨b1, b2, b3, b4, b5, b6⟩ := x; exact ⟨b1, b2, b3, b4, b5, b6⟩
      · simp only [Prod.mk.injEq] at h
        have y : Base (s.writeLoop s.writeops ans).1 := Base.writeLoop x
        rw [← h.1]
        split
        · obtain ⟨b1, b2, b3, b4, b5, b6⟩ := y; exact ⟨b1, b2, b3, b4, b5, b6⟩
        · exact y
  | readS i n =>
    simp only [Sync.step] at h
    split at h
    · rename_i hc
      simp only [Option.some.injEq, Sync.readS] at h
      split at h
      · rw [← (Prod.mk.inj h).1]; exact x
      · split at h
        · rw [← (Prod.mk.inj h).1]; exact x
        · rw [← (Prod.mk.inj h).1]
          have nr : i ∉ s.readops := fun h => by have := (x.rd i h).1; rw [hc] at this; cases this
          have nw : i ∉ s.writeops := fun h => by obtain ⟨k, this⟩ := (x.wr i h).1; rw [hc] at this; cases this
          obtain ⟨b1, b2, b3, b4, b5, b6⟩ := x
          refine ⟨?_, ?_, ?_, ?_, ?_, b6⟩
          · intro j h
            simp only [List.mem_append, List.mem_singleton] at h
            by_cases hj : j = i
            · subst hj; simp
            · simp only [upd_ne _ _ hj]; exact b1 j (by simpa [hj] using h)
          · intro j h
            have hj : j ≠ i := fun e => nw (e ▸ h)
            simp only [upd_ne _ _ hj]; exact b2 j h
          · intro j h1 h2
            by_cases hj : j = i
            · subst hj; simp
            · simp only [upd_ne _ _ hj] at h1 h2; simp [b3 j h1 h2]
          · intro j k h1 h2
            by_cases hj : j = i
            · subst hj; simp at h1
            · simp only [upd_ne _ _ hj] at h1 h2; exact b4 j k h1 h2
          · simp only
            rw [List.nodup_append]
            refine ⟨b5, by simp, ?_⟩
            intro a ha b hb e
            simp only [List.mem_singleton] at hb
            subst hb; subst e; exact nr ha
    · cases h
  | writeS i d =>
    simp only [Sync.step] at h
    split at h
    · rename_i hc
      simp only [Option.some.injEq, Sync.writeS] at h
      split at h
      · rw [← (Prod.mk.inj h).1]; exact x
      · split at h
        · rw [← (Prod.mk.inj h).1]; exact x
        · rw [← (Prod.mk.inj h).1]
          have nr : i ∉ s.readops := fun h => by have := (x.rd i h).1; rw [hc] at this; cases this
          have nw : i ∉ s.writeops := fun h => by obtain ⟨k, this⟩ := (x.wr i h).1; rw [hc] at this; cases this
          obtain ⟨b1, b2, b3, b4, b5, b6⟩ := x
          refine ⟨?_, ?_, ?_, ?_, b5, ?_⟩
          · intro j h
            have hj : j ≠ i := fun e => nr (e ▸ h)
            simp only [upd_ne _ _ hj]; exact b1 j h
          · intro j h
            simp only [List.mem_append, List.mem_singleton] at h
            by_cases hj : j = i
            · subst hj; simp
            · simp only [upd_ne _ _ hj]; exact b2 j (by simpa [hj] using h)
          · intro j h1 h2
            by_cases hj : j = i
            · subst hj; simp at h1
            · simp only [upd_ne _ _ hj] at h1 h2; exact b3 j h1 h2
          · intro j k h1 h2
            by_cases hj : j = i
            · subst hj; simp
            · simp only [upd_ne _ _ hj] at h1 h2; simp [b4 j k h1 h2]
          · simp only
            rw [List.nodup_append]
            refine ⟨b6, by simp, ?_⟩
            intro a ha b hb e
            simp only [List.mem_singleton] at hb
            subst hb; subst e; exact nw ha
    · cases h
  | readWake i rv =>
    simp only [Sync.step] at h
    split at h
    · rename_i hc
      simp only [Option.some.injEq, Sync.readWake, Prod.mk.injEq] at h
      rw [← h.1]
      obtain ⟨b1, b2, b3, b4, b5, b6⟩ := x
      have hnq : (s.op i).queued = false → i ∉ s.readops := fun h h' => by rw [(b1 i h').2.1] at h; cases h
      have hne : (s.op i).err ≠ 0 → i ∉ s.readops := fun h h' => h (b1 i h').2.2
      have hmem : ∀ j, j ∈ s.readops.erase i ↔ j ≠ i ∧ j ∈ s.readops := fun j => b5.mem_erase_iff
      have nw : i ∉ s.writeops := fun h => by obtain ⟨k, this⟩ := (b2 i h).1; rw [hc] at this; cases this
      refine ⟨?_, ?_, ?_, ?_, ?_, ?_⟩ <;> (intros; split <;> split) <;> simp only [upd] at * <;> grind
    · cases h
  | writeWake i rv =>
    simp only [Sync.step] at h
    split at h
    · rename_i n hc
      simp only [Option.some.injEq, Sync.writeWake, Prod.mk.injEq] at h
      rw [← h.1]
      obtain ⟨b1, b2, b3, b4, b5, b6⟩ := x
      have hmem : ∀ j, j ∈ s.writeops.erase i ↔ j ≠ i ∧ j ∈ s.writeops := fun j => b6.mem_erase_iff
      have nr : i ∉ s.readops := fun h => by have := (b1 i h).1; rw [hc] at this; cases this
      refine ⟨?_, ?_, ?_, ?_, ?_, ?_⟩ <;> (intros; split <;> split) <;> simp only [upd] at * <;> grind
    · cases h

/-- The reads with the data each has got so far. -/
structure RI (s : Sync) (m : List (Rd × List UInt8)) (c : List UInt8) : Prop where
  act : ∀ e ∈ m, e.1.res = none → s.call e.1.id = .read ∧ ((s.op e.1.id).queued = true → e.2 = [])
    ∧ ((s.op e.1.id).queued = false → (s.op e.1.id).err ≠ 0 → e.2 = [])
    ∧ ((s.op e.1.id).queued = false → (s.op e.1.id).err = 0 → e.2 = (s.op e.1.id).buf.take (s.op e.1.id).len)
  ret : ∀ e ∈ m, ∀ d, e.1.res = some d → e.2 = d
  uniq : m.Pairwise fun x y => x.1.res = none → y.1.res = none → x.1.id ≠ y.1.id
  has : ∀ i, s.call i = .read → ∃ e ∈ m, e.1.id = i ∧ e.1.res = none
  queue : s.readops = (m.filter fun e => decide (e.1.res = none) && (s.op e.1.id).queued).map (·.1.id)
  ord : m.Pairwise fun x y => x.1.res = none → (s.op x.1.id).queued = true → y.2 = []
  all : c = m.flatMap (·.2)

/-- The writes with the number of bytes of each that have been passed on. -/
structure WI (s : Sync) (m : List (Wr × Nat)) (c : List UInt8) : Prop where
  act : ∀ e ∈ m, e.1.res = none → s.call e.1.id = .write e.1.data.length
    ∧ (s.op e.1.id).len + e.2 = e.1.data.length ∧ (s.op e.1.id).buf = e.1.data.drop e.2
  le : ∀ e ∈ m, e.2 ≤ e.1.data.length
  ret : ∀ e ∈ m, ∀ d, e.1.res = some (some d) → e.2 = d
  uniq : m.Pairwise fun x y => x.1.res = none → y.1.res = none → x.1.id ≠ y.1.id
  has : ∀ i n, s.call i = .write n → ∃ e ∈ m, e.1.id = i ∧ e.1.res = none
  queue : s.writeops = (m.filter fun e => decide (e.1.res = none) && (s.op e.1.id).queued).map (·.1.id)
  ord : m.Pairwise fun x y => x.1.res = none → (s.op x.1.id).queued = true → y.2 = 0
  all : c = m.flatMap fun e => e.1.data.take e.2

/-- Nothing that matters for the reads has changed. -/
theorem RI.frame {s t : Sync} {m : List (Rd × List UInt8)} {c : List UInt8} (x : RI s m c)
    (h1 : ∀ i, t.call i = .read ↔ s.call i = .read) (h2 : ∀ i, s.call i = .read → t.op i = s.op i)
    (h3 : t.readops = s.readops) : RI t m c := by
  obtain ⟨a1, a2, a3, a4, a5, a6, a7⟩ := x
  refine ⟨?_, a2, a3, ?_, ?_, ?_, a7⟩
  · intro e he hn
    have := a1 e he hn
    rw [h1, h2 _ this.1]; exact this
  · intro i h; exact a4 i ((h1 i).1 h)
  · rw [h3, a5]
    congr 1
    apply List.filter_congr
    intro e he
    by_cases hn : e.1.res = none
    · rw [h2 _ (a1 e he hn).1]
    · simp [hn]
  · refine List.Pairwise.imp_of_mem ?_ a6
    intro x y hx hy h e1 e2
    rw [h2 _ (a1 x hx e1).1] at e2
    exact h e1 e2

theorem WI.frame {s t : Sync} {m : List (Wr × Nat)} {c : List UInt8} (x : WI s m c)
    (h1 : ∀ i n, t.call i = .write n ↔ s.call i = .write n) (h2 : ∀ i n, s.call i = .write n → t.op i = s.op i)
    (h3 : t.writeops = s.writeops) : WI t m c := by
  obtain ⟨a1, a2, a3, a4, a5, a6, a7, a8⟩ := x
  refine ⟨?_, a2, a3, a4, ?_, ?_, ?_, a8⟩
  · intro e he hn
    have := a1 e he hn
    rw [h1, h2 _ _ this.1]; exact this
  · intro i n h; exact a5 i n ((h1 i n).1 h)
  · rw [h3, a6]
    congr 1
    apply List.filter_congr
    intro e he
    by_cases hn : e.1.res = none
    · rw [h2 _ _ (a1 e he hn).1]
    · simp [hn]
  · refine List.Pairwise.imp_of_mem ?_ a7
    intro x y hx hy h e1 e2
    rw [h2 _ _ (a1 x hx e1).1] at e2
    exact h e1 e2

theorem RI.flush {s : Sync} {m : List (Rd × List UInt8)} {c : List UInt8} (b : Base s) (x : RI s m c) (he : s.err ≠ 0) :
    RI s.flush m c := by
  obtain ⟨a1, a2, a3, a4, a5, a6, a7⟩ := x
  have hq : ∀ i, s.call i = .read → (s.flush.op i).queued = false ∧ ((s.op i).queued = true → (s.flush.op i).err ≠ 0)
      ∧ ((s.op i).queued = false → s.flush.op i = s.op i) := by
    intro i hc
    have nw : i ∉ s.writeops := fun h => by obtain ⟨k, e⟩ := (b.wr i h).1; rw [hc] at e; cases e
    simp only [Sync.flush]
    split
    · rename_i h
      rcases h with h | h
      · exact ⟨rfl, fun _ => he, (fun e => by rw [(b.rd i h).2.1] at e; cases e)⟩
      · exact absurd h nw
    · rename_i h
      rw [not_or] at h
      have : (s.op i).queued = false := by
        cases e : (s.op i).queued with
        | false => rfl
        | true => exact absurd (b.rq i hc e) h.1
      exact ⟨this, (fun e => by rw [this] at e; cases e), fun _ => rfl⟩
  refine ⟨?_, a2, a3, a4, ?_, ?_, a7⟩
  · intro e hm hn
    obtain ⟨g1, g2, g3, g4⟩ := a1 e hm hn
    obtain ⟨k1, k2, k3⟩ := hq _ g1
    refine ⟨g1, (fun e => by rw [k1] at e; cases e), fun _ h => ?_, fun _ h => ?_⟩
    · cases hq' : (s.op e.1.id).queued with
      | true => exact g2 hq'
      | false => exact g3 hq' (by rw [k3 hq'] at h; exact h)
    · cases hq' : (s.op e.1.id).queued with
      | true => exact absurd h (k2 hq')
      | false => rw [k3 hq'] at h ⊢; exact g4 hq' h
  · show [] = _
    symm
    rw [List.map_eq_nil_iff, List.filter_eq_nil_iff]
    intro e hm
    by_cases hn : e.1.res = none
    · simp [(hq _ (a1 e hm hn).1).1]
    · simp [hn]
  · refine List.Pairwise.imp_of_mem ?_ a6
    intro x y hx hy h e1 e2
    rw [(hq _ (a1 x hx e1).1).1] at e2
    cases e2

theorem WI.flush {s : Sync} {m : List (Wr × Nat)} {c : List UInt8} (b : Base s) (x : WI s m c) :
    WI s.flush m c := by
  obtain ⟨a1, a2, a3, a4, a5, a6, a7, a8⟩ := x
  have hq : ∀ i n, s.call i = .write n → (s.flush.op i).queued = false ∧ (s.flush.op i).len = (s.op i).len
      ∧ (s.flush.op i).buf = (s.op i).buf := by
    intro i n hc
    simp only [Sync.flush]
    split
    · exact ⟨rfl, rfl, rfl⟩
    · rename_i h
      rw [not_or] at h
      refine ⟨?_, rfl, rfl⟩
      cases e : (s.op i).queued with
      | false => rfl
      | true => exact absurd (b.wq i n hc e) h.2
  refine ⟨?_, a2, a3, a4, a5, ?_, ?_, a8⟩
  · intro e hm hn
    obtain ⟨g1, g2, g3⟩ := a1 e hm hn
    obtain ⟨k1, k2, k3⟩ := hq _ _ g1
    exact ⟨g1, by rw [k2]; exact g2, by rw [k3]; exact g3⟩
  · show [] = _
    symm
    rw [List.map_eq_nil_iff, List.filter_eq_nil_iff]
    intro e hm
    by_cases hn : e.1.res = none
    · simp [(hq _ _ (a1 e hm hn).1).1]
    · simp [hn]
  · refine List.Pairwise.imp_of_mem ?_ a7
    intro x y hx hy h e1 e2
    rw [(hq _ _ (a1 x hx e1).1).1] at e2
    cases e2

theorem flatMap_nil_of {α β : Type} {l : List α} {f : α → List β} (h : ∀ x ∈ l, f x = []) : l.flatMap f = [] := by
  rw [List.flatMap_eq_nil_iff]; exact h

/-- The loop of the write event. -/
theorem WI.writeLoop {s : Sync} {l : List Nat} {ans : List Ans} {m : List (Wr × Nat)} {c : List UInt8}
    (b : Base { s with writeops := l }) (x : WI { s with writeops := l } m c) :
    ∃ m', m'.map (·.1) = m.map (·.1) ∧ WI (s.writeLoop l ans).1 m' (c ++ (s.writeLoop l ans).2) := by
  induction l generalizing s ans m c with
  | nil => exact ⟨m, rfl, by simpa [Sync.writeLoop] using x⟩
  | cons i l ih =>
    unfold Sync.writeLoop
    cases ans with
    | nil => exact ⟨m, rfl, by simpa using x⟩
    | cons a ans =>
      cases a with
      | err e =>
        refine ⟨m, rfl, ?_⟩
        simp only [List.append_nil]
        obtain ⟨a1, a2, a3, a4⟩ := setErr_frame { s with writeops := i :: l } e
        apply WI.flush
        · obtain ⟨b1, b2, b3, b4, b5, b6⟩ := b
          exact ⟨by simp only [a1, a2, a3]; exact b1, by simp only [a1, a2, a4]; exact b2, by simp only [a1, a2, a3]; exact b3,
            by simp only [a1, a2, a4]; exact b4, by simp only [a3]; exact b5, by simp only [a4]; exact b6⟩
        · exact x.frame (fun j n => by rw [a2]) (fun j n _ => by rw [a1]) a4
      | took n =>
        obtain ⟨a1, a2, a3, a4, a5, a6, a7, a8⟩ := x
        simp only at a1 a5 a6 a7
        have a6' := a6.symm
        rw [List.map_eq_cons_iff] at a6'
        obtain ⟨e0, rest, h1, h2, h3⟩ := a6'
        rw [List.filter_eq_cons_iff] at h1
        obtain ⟨pre, post, hm, hpre, h0, hpost⟩ := h1
        simp only [Bool.and_eq_true, decide_eq_true_eq, Bool.not_eq_true] at h0 hpre
        obtain ⟨hn0, hq0⟩ := h0
        subst h2
        have he0 : e0 ∈ m := by rw [hm]; simp
        obtain ⟨g1, g2, g3⟩ := a1 e0 he0 hn0
        have hu := a4
        rw [hm, List.pairwise_append, List.pairwise_cons] at hu
        obtain ⟨u1, ⟨u2, u3⟩, u4⟩ := hu
        have ho := a7
        rw [hm, List.pairwise_append, List.pairwise_cons] at ho
        obtain ⟨o1, ⟨o2, o3⟩, o4⟩ := ho
        have hz : ∀ y ∈ post, y.2 = 0 := fun y hy => o2 y hy hn0 hq0
        have nepre : ∀ y ∈ pre, y.1.res = none → y.1.id ≠ e0.1.id := fun y hy hn => u4 y hy e0 (by simp) hn hn0
        have nepost : ∀ y ∈ post, y.1.res = none → y.1.id ≠ e0.1.id := fun y hy hn => (u2 y hy hn0 hn).symm
        -- the bytes sent
        have hlen : ((s.op e0.1.id).buf.take (min n (s.op e0.1.id).len))
            = (e0.1.data.drop e0.2).take (min n (s.op e0.1.id).len) := by rw [g3]
        have hall : c ++ (s.op e0.1.id).buf.take (min n (s.op e0.1.id).len)
            = (pre ++ (e0.1, e0.2 + min n (s.op e0.1.id).len) :: post).flatMap fun e => e.1.data.take e.2 := by
          rw [a8, hm, List.flatMap_append, List.flatMap_append, List.flatMap_cons, List.flatMap_cons,
            flatMap_nil_of (l := post) (fun y hy => by rw [hz y hy]; rfl), List.append_nil, List.append_nil, hlen,
            List.append_assoc, ← List.take_add]
        have general : ∀ (op' : Op) (l' : List Nat), op'.len = (s.op e0.1.id).len - min n (s.op e0.1.id).len →
            op'.buf = (s.op e0.1.id).buf.drop (min n (s.op e0.1.id).len) →
            (l' = if op'.queued then e0.1.id :: l else l) →
            WI { s with op := upd s.op e0.1.id op', writeops := l' }
              (pre ++ (e0.1, e0.2 + min n (s.op e0.1.id).len) :: post)
              (c ++ (s.op e0.1.id).buf.take (min n (s.op e0.1.id).len)) := by
          intro op' l' p1 p2 p3
          refine ⟨?_, ?_, ?_, ?_, ?_, ?_, ?_, hall⟩
          · intro e he hn
            simp only [List.mem_append, List.mem_cons] at he
            rcases he with he | he | he
            · simp only [upd_ne _ _ (nepre e he hn)]; exact a1 e (by rw [hm]; simp [he]) hn
            · subst he
              simp only [upd_same, p1, p2]
              refine ⟨g1, by omega, ?_⟩
              rw [g3, List.drop_drop]
            · simp only [upd_ne _ _ (nepost e he hn)]; exact a1 e (by rw [hm]; simp [he]) hn
          · intro e he
            simp only [List.mem_append, List.mem_cons] at he
            rcases he with he | he | he
            · exact a2 e (by rw [hm]; simp [he])
            · subst he; simp only; omega
            · exact a2 e (by rw [hm]; simp [he])
          · intro e he d hd
            simp only [List.mem_append, List.mem_cons] at he
            rcases he with he | he | he
            · exact a3 e (by rw [hm]; simp [he]) d hd
            · subst he; rw [hn0] at hd; cases hd
            · exact a3 e (by rw [hm]; simp [he]) d hd
          · rw [List.pairwise_append, List.pairwise_cons]
            exact ⟨u1, ⟨u2, u3⟩, fun y hy z hz => by
              rcases List.mem_cons.mp hz with hz | hz
              · subst hz; exact u4 y hy e0 (by simp)
              · exact u4 y hy z (by simp [hz])⟩
          · intro j k h
            obtain ⟨e, he, q1, q2⟩ := a5 j k h
            rw [hm] at he
            simp only [List.mem_append, List.mem_cons] at he
            rcases he with he | he | he
            · exact ⟨e, by simp [he], q1, q2⟩
            · exact ⟨(e0.1, e0.2 + min n (s.op e0.1.id).len), by simp, by rw [← q1, he], hn0⟩
            · exact ⟨e, by simp [he], q1, q2⟩
          · simp only
            rw [List.filter_append]
            have f1 : pre.filter (fun e => decide (e.1.res = none) && (upd s.op e0.1.id op' e.1.id).queued) = [] := by
              rw [List.filter_eq_nil_iff]
              intro e he
              by_cases hn : e.1.res = none
              · rw [upd_ne _ _ (nepre e he hn)]
                have := hpre e he
                simpa [hn] using this
              · simp [hn]
            have f2 : post.filter (fun e => decide (e.1.res = none) && (upd s.op e0.1.id op' e.1.id).queued) = rest := by
              rw [← hpost]
              apply List.filter_congr
              intro e he
              by_cases hn : e.1.res = none
              · rw [upd_ne _ _ (nepost e he hn)]
              · simp [hn]
            rw [f1, List.nil_append, List.filter_cons]
            simp only [hn0, decide_true, Bool.true_and, upd_same, f2, p3]
            cases op'.queued
            · simp [h3]
            · simp [h3]
          · rw [List.pairwise_append, List.pairwise_cons]
            have q : ∀ y ∈ pre, y.1.res = none → (upd s.op e0.1.id op' y.1.id).queued = true → False := by
              intro y hy hn hq
              rw [upd_ne _ _ (nepre y hy hn)] at hq
              exact hpre y hy ⟨hn, hq⟩
            refine ⟨?_, ⟨fun y hy _ _ => hz y hy, ?_⟩, fun y hy z _ hn hq => (q y hy hn hq).elim⟩
            · refine List.Pairwise.imp_of_mem ?_ o1
              intro x y hx hy _ hn hq
              exact (q x hx hn hq).elim
            · refine List.Pairwise.imp_of_mem ?_ o3
              intro x y hx hy _ hn hq
              exact hz y hy
        have hmap : (pre ++ (e0.1, e0.2 + min n (s.op e0.1.id).len) :: post).map (·.1) = m.map (·.1) := by
          rw [hm]; simp
        simp only
        split
        · rename_i hz0
          have y := general ⟨false, (s.op e0.1.id).buf.drop (min n (s.op e0.1.id).len),
            (s.op e0.1.id).len - min n (s.op e0.1.id).len, (s.op e0.1.id).err⟩ l rfl rfl (by simp)
          have b' : Base ({ s with op := upd s.op e0.1.id ⟨false, (s.op e0.1.id).buf.drop (min n (s.op e0.1.id).len),
              (s.op e0.1.id).len - min n (s.op e0.1.id).len, (s.op e0.1.id).err⟩, writeops := l } : Sync) := by
            have := Base.writeLoop (ans := [.took n]) b
            simp only [Sync.writeLoop] at this
            rw [if_pos hz0] at this
            cases l with
            | nil => exact this
            | cons _ _ => exact this
          obtain ⟨m', r1, r2⟩ := ih (s := { s with op := upd s.op e0.1.id ⟨false, (s.op e0.1.id).buf.drop
            (min n (s.op e0.1.id).len), (s.op e0.1.id).len - min n (s.op e0.1.id).len, (s.op e0.1.id).err⟩ }) (ans := ans) b' y
          refine ⟨m', r1.trans hmap, ?_⟩
          rw [← List.append_assoc]
          exact r2
        · refine ⟨_, hmap, general _ _ rfl rfl ?_⟩
          rw [if_pos hq0]

/-- The loop of the read event when nothing is left. -/
theorem readLoop_fit (buf : List UInt8) {n : Nat} (hn : n ≠ 0) (l : List Nat) (s : Sync) (d : Nat) (h : l = [] ∨ d = 0) :
    s.readLoop buf n l d = ({ s with readops := [], op := fun k =>
      if k ∈ l then ⟨false, [], 0, (s.op k).err⟩ else s.op k }, d) := by
  induction l generalizing s with
  | nil => simp [Sync.readLoop]
  | cons i l ih =>
    have hd : d = 0 := by simpa using h
    subst hd
    unfold Sync.readLoop
    rw [if_neg hn]
    simp only [Nat.zero_min, List.take_zero, Nat.sub_zero]
    rw [ih _ (Or.inr rfl)]
    congr 2
    funext k
    by_cases hk : k = i
    · subst hk; simp
    · simp [hk, upd_ne]

/-- The operations after an event that fits. -/
def afterEv (s : Sync) (l : List Nat) (i : Nat) (d : List UInt8) (k : Nat) : Op :=
  if k ∈ l then ⟨false, [], 0, (s.op k).err⟩
  else upd s.op i ⟨false, d.take (min d.length (s.op i).len), min d.length (s.op i).len, (s.op i).err⟩ k

/-- The read event, when only one read waits or the first one has room for all. -/
theorem RI.event {s : Sync} {m : List (Rd × List UInt8)} {c : List UInt8} (b : Base s) (x : RI s m c) (d : List UInt8)
    (fit : ∀ i l, s.readops = i :: l → l = [] ∨ d.length ≤ (s.op i).len) {t : Sync} {n : Nat}
    (h : s.event d = (t, .consumed n)) :
    ∃ m', m'.map (·.1) = m.map (·.1) ∧ RI t m' (c ++ d.take n) := by
  unfold Sync.event at h
  split at h
  · simp only [Prod.mk.injEq, Ev.consumed.injEq] at h
    obtain ⟨rfl, rfl⟩ := h
    refine ⟨m, rfl, ?_⟩
    simp only [List.take_zero, List.append_nil]
    exact x.frame (fun _ => Iff.rfl) (fun _ _ => rfl) rfl
  · rename_i hne
    simp only [Prod.mk.injEq, Ev.consumed.injEq] at h
    obtain ⟨ht, hn⟩ := h
    have fr : ∀ (u : Sync) m', RI u m' (c ++ d.take n) →
        RI (if (s.readLoop d d.length s.readops d.length).2 > 0 then { u with readEn := false } else u) m' (c ++ d.take n) := by
      intro u m' x
      split
      · exact x.frame (fun _ => Iff.rfl) (fun _ _ => rfl) rfl
      · exact x
    by_cases hd : d.length = 0
    · have hs : s.readLoop d d.length s.readops d.length = (s, d.length) := by
        rw [hd]
        cases h : s.readops with
        | nil => exact absurd h hne
        | cons i l => simp only [Sync.readLoop, if_true]; rw [← h]
      refine ⟨m, rfl, ?_⟩
      rw [← ht]
      apply fr
      rw [hs]
      have : d = [] := by simpa using hd
      subst this
      simpa using x
    · obtain ⟨a1, a2, a3, a4, a5, a6, a7⟩ := x
      cases hr : s.readops with
      | nil => exact absurd hr hne
      | cons i l =>
      have hnd := b.rn
      rw [hr, List.nodup_cons] at hnd
      have a5' := a5.symm
      rw [hr, List.map_eq_cons_iff] at a5'
      obtain ⟨e0, rest, h1, h2, h3⟩ := a5'
      rw [List.filter_eq_cons_iff] at h1
      obtain ⟨pre, post, hm, hpre, h0, hpost⟩ := h1
      simp only [Bool.and_eq_true, decide_eq_true_eq, Bool.not_eq_true] at h0 hpre
      obtain ⟨hn0, hq0⟩ := h0
      subst h2
      have he0 : e0 ∈ m := by rw [hm]; simp
      obtain ⟨g1, g2, g3⟩ := a1 e0 he0 hn0
      have hu := a3
      rw [hm, List.pairwise_append, List.pairwise_cons] at hu
      obtain ⟨u1, ⟨u2, u3⟩, u4⟩ := hu
      have ho := a6
      rw [hm, List.pairwise_append, List.pairwise_cons] at ho
      obtain ⟨o1, ⟨o2, o3⟩, o4⟩ := ho
      have hz : ∀ y ∈ post, y.2 = [] := fun y hy => o2 y hy hn0 hq0
      have nepre : ∀ y ∈ pre, y.1.res = none → y.1.id ≠ e0.1.id := fun y hy hn => u4 y hy e0 (by simp) hn hn0
      have nepost : ∀ y ∈ post, y.1.res = none → y.1.id ≠ e0.1.id := fun y hy hn => (u2 y hy hn0 hn).symm
      have hl : s.readLoop d d.length s.readops d.length
          = ({ s with readops := [], op := afterEv s l e0.1.id d }, d.length - min d.length (s.op e0.1.id).len) := by
        rw [hr]
        unfold Sync.readLoop
        rw [if_neg hd]
        simp only
        rw [readLoop_fit d hd]
        · congr 2
          funext k
          unfold afterEv
          by_cases hk : k ∈ l
          · have : k ≠ e0.1.id := fun e => hnd.1 (e ▸ hk)
            simp [hk, upd_ne _ _ this]
          · simp [hk]
        · rcases fit _ _ hr with h | h
          · exact Or.inl h
          · right; omega
      rw [hl] at ht hn
      simp only at ht hn
      have hn' : n = min d.length (s.op e0.1.id).len := by omega
      have memrest : ∀ k, k ∈ l ↔ ∃ e ∈ rest, e.1.id = k := by
        intro k; rw [← h3]; simp
      have restpost : ∀ e ∈ rest, e ∈ post ∧ e.1.res = none := by
        intro e he
        rw [← hpost, List.mem_filter] at he
        simp only [Bool.and_eq_true, decide_eq_true_eq] at he
        exact ⟨he.1, he.2.1⟩
      have e0l : e0.1.id ∉ l := hnd.1
      -- entries not queued before
      have nql : ∀ y ∈ m, y.1.res = none → (s.op y.1.id).queued = false → y.1.id ∉ l := by
        intro y hy hn hq hl'
        have := (b.rd y.1.id (by rw [hr]; simp [hl'])).2.1
        rw [hq] at this; cases this
      have nq : ∀ (u : Op) k, u.queued = false → s.call k = .read →
          (if k ∈ l then (⟨false, [], 0, (s.op k).err⟩ : Op) else upd s.op e0.1.id u k).queued = false := by
        intro u k hu hc
        split
        · rfl
        · rename_i hk
          by_cases he : k = e0.1.id
          · subst he; simpa using hu
          · rw [upd_ne _ _ he]
            cases hq : (s.op k).queued with
            | false => rfl
            | true =>
              have := b.rq k hc hq
              rw [hr] at this
              simp [he, hk] at this
      refine ⟨pre ++ (e0.1, d.take n) :: post, by rw [hm]; simp, ?_⟩
      rw [← ht]
      have hfin : RI ({ s with readops := [], op := afterEv s l e0.1.id d } : Sync) (pre ++ (e0.1, d.take n) :: post) (c ++ d.take n) := by
        have other : ∀ e ∈ m, e.1.res = none → e.1.id ≠ e0.1.id →
            s.call e.1.id = .read ∧ (((if e.1.id ∈ l then (⟨false, [], 0, (s.op e.1.id).err⟩ : Op)
              else s.op e.1.id)).err ≠ 0 → e.2 = [])
            ∧ ((if e.1.id ∈ l then (⟨false, [], 0, (s.op e.1.id).err⟩ : Op) else s.op e.1.id).err = 0 →
              e.2 = (if e.1.id ∈ l then (⟨false, [], 0, (s.op e.1.id).err⟩ : Op) else s.op e.1.id).buf.take
                (if e.1.id ∈ l then (⟨false, [], 0, (s.op e.1.id).err⟩ : Op) else s.op e.1.id).len) := by
          intro e he hn hne
          obtain ⟨q1, q2, q3, q4⟩ := a1 e he hn
          refine ⟨q1, ?_⟩
          split
          · rename_i hk
            have := q2 (b.rd e.1.id (by rw [hr]; simp [hk])).2.1
            exact ⟨fun _ => this, fun _ => this⟩
          · rename_i hk
            have hq : (s.op e.1.id).queued = false := by
              cases hq : (s.op e.1.id).queued with
              | false => rfl
              | true =>
                have := b.rq _ q1 hq
                rw [hr] at this
                simp [hne, hk] at this
            exact ⟨q3 hq, q4 hq⟩
        refine ⟨?_, ?_, ?_, ?_, ?_, ?_, ?_⟩
        · intro e he hn
          simp only [List.mem_append, List.mem_cons] at he
          rcases he with he | he | he
          · obtain ⟨q1, q2, q3⟩ := other e (by rw [hm]; simp [he]) hn (nepre e he hn)
            have := nq ⟨false, d.take (min d.length (s.op e0.1.id).len), min d.length (s.op e0.1.id).len,
                (s.op e0.1.id).err⟩ e.1.id rfl q1
            simp only [afterEv]
            rw [this]
            refine ⟨q1, (fun h => by cases h), fun _ => ?_, fun _ => ?_⟩ <;> rw [upd_ne _ _ (nepre e he hn)] <;> assumption
          · subst he
            simp only [afterEv, if_neg e0l, upd_same]
            refine ⟨g1, (fun h => by cases h), fun _ h => ?_, fun _ _ => ?_⟩
            · exact absurd (b.rd e0.1.id (by rw [hr]; simp)).2.2 h
            · rw [hn', List.take_take, Nat.min_self]
          · obtain ⟨q1, q2, q3⟩ := other e (by rw [hm]; simp [he]) hn (nepost e he hn)
            have := nq ⟨false, d.take (min d.length (s.op e0.1.id).len), min d.length (s.op e0.1.id).len,
                (s.op e0.1.id).err⟩ e.1.id rfl q1
            simp only [afterEv]
            rw [this]
            refine ⟨q1, (fun h => by cases h), fun _ => ?_, fun _ => ?_⟩ <;> rw [upd_ne _ _ (nepost e he hn)] <;> assumption
        · intro e he d' hd'
          simp only [List.mem_append, List.mem_cons] at he
          rcases he with he | he | he
          · exact a2 e (by rw [hm]; simp [he]) d' hd'
          · subst he; rw [hn0] at hd'; cases hd'
          · exact a2 e (by rw [hm]; simp [he]) d' hd'
        · rw [List.pairwise_append, List.pairwise_cons]
          exact ⟨u1, ⟨u2, u3⟩, fun y hy z hz => by
            rcases List.mem_cons.mp hz with hz | hz
            · subst hz; exact u4 y hy e0 (by simp)
            · exact u4 y hy z (by simp [hz])⟩
        · intro j h
          obtain ⟨e, he, q1, q2⟩ := a4 j h
          rw [hm] at he
          simp only [List.mem_append, List.mem_cons] at he
          rcases he with he | he | he
          · exact ⟨e, by simp [he], q1, q2⟩
          · exact ⟨(e0.1, d.take n), by simp, by rw [← q1, he], hn0⟩
          · exact ⟨e, by simp [he], q1, q2⟩
        · symm
          rw [List.map_eq_nil_iff, List.filter_eq_nil_iff]
          intro e he
          by_cases hne' : e.1.res = none
          · have hc : s.call e.1.id = .read := by
              simp only [List.mem_append, List.mem_cons] at he
              rcases he with he | he | he
              · exact (a1 e (by rw [hm]; simp [he]) hne').1
              · subst he; exact g1
              · exact (a1 e (by rw [hm]; simp [he]) hne').1
            have := nq ⟨false, d.take (min d.length (s.op e0.1.id).len), min d.length (s.op e0.1.id).len,
                (s.op e0.1.id).err⟩ e.1.id rfl hc
            simp only [afterEv]
            rw [this]; simp
          · simp [hne']
        · have hc : ∀ e ∈ pre ++ (e0.1, d.take n) :: post, e.1.res = none → s.call e.1.id = .read := by
            intro e he hne'
            simp only [List.mem_append, List.mem_cons] at he
            rcases he with he | he | he
            · exact (a1 e (by rw [hm]; simp [he]) hne').1
            · subst he; exact g1
            · exact (a1 e (by rw [hm]; simp [he]) hne').1
          refine List.Pairwise.imp_of_mem (R := fun _ _ => True) ?_ (by simp [List.pairwise_iff_forall_sublist])
          intro x y hx hy _ hn1 hq
          have := nq ⟨false, d.take (min d.length (s.op e0.1.id).len), min d.length (s.op e0.1.id).len,
                (s.op e0.1.id).err⟩ x.1.id rfl (hc x hx hn1)
          simp only [afterEv] at hq
          rw [this] at hq; cases hq
        · rw [a7, hm, List.flatMap_append, List.flatMap_append, List.flatMap_cons, List.flatMap_cons,
            flatMap_nil_of (l := post) hz, List.append_nil, List.append_nil, g2 hq0, List.append_nil]
      split
      · exact hfin.frame (fun _ => Iff.rfl) (fun _ _ => rfl) rfl
      · exact hfin

/-- A read is called. -/
theorem RI.readS {s : Sync} {m : List (Rd × List UInt8)} {c : List UInt8} (x : RI s m c) {i n : Nat}
    (hc : s.call i = .none) : RI { s with op := upd s.op i ⟨true, [], n, 0⟩, call := upd s.call i .read, readEn := true,
                                          readops := s.readops ++ [i] } (m ++ [(⟨i, none⟩, [])]) c := by
  obtain ⟨a1, a2, a3, a4, a5, a6, a7⟩ := x
  have ne : ∀ e ∈ m, e.1.res = none → e.1.id ≠ i := by
    intro e he hn h
    have := (a1 e he hn).1
    rw [h, hc] at this; cases this
  refine ⟨?_, ?_, ?_, ?_, ?_, ?_, ?_⟩
  · intro e he hn
    simp only [List.mem_append, List.mem_singleton] at he
    rcases he with he | he
    · simp only [upd_ne _ _ (ne e he hn)]; exact a1 e he hn
    · subst he; simp
  · intro e he d hd
    simp only [List.mem_append, List.mem_singleton] at he
    rcases he with he | he
    · exact a2 e he d hd
    · subst he; cases hd
  · rw [List.pairwise_append]
    refine ⟨a3, by simp, ?_⟩
    intro y hy z hz h1 h2
    simp only [List.mem_singleton] at hz
    subst hz; exact ne y hy h1
  · intro j h
    by_cases hj : j = i
    · subst hj; exact ⟨(⟨j, none⟩, []), by simp, rfl, rfl⟩
    · simp only [upd_ne _ _ hj] at h
      obtain ⟨e, he, q⟩ := a4 j h
      exact ⟨e, by simp [he], q⟩
  · simp only
    rw [List.filter_append, List.map_append, a5]
    congr 1
    · congr 1
      apply List.filter_congr
      intro e he
      by_cases hn : e.1.res = none
      · rw [upd_ne _ _ (ne e he hn)]
      · simp [hn]
    · simp
  · rw [List.pairwise_append]
    refine ⟨?_, by simp, ?_⟩
    · refine List.Pairwise.imp_of_mem ?_ a6
      intro x y hx hy h e1 e2
      simp only [upd_ne _ _ (ne x hx e1)] at e2
      exact h e1 e2
    · intro y hy z hz _ _
      simp only [List.mem_singleton] at hz
      subst hz; rfl
  · rw [List.flatMap_append, a7]; simp

theorem WI.writeS {s : Sync} {m : List (Wr × Nat)} {c : List UInt8} (x : WI s m c) {i : Nat} {d : List UInt8}
    (hc : s.call i = .none) : WI { s with op := upd s.op i ⟨true, d, d.length, 0⟩, call := upd s.call i (.write d.length),
                                          writeEn := true, writeops := s.writeops ++ [i] } (m ++ [(⟨i, d, none⟩, 0)]) c := by
  obtain ⟨a1, a2, a3, a4, a5, a6, a7, a8⟩ := x
  have ne : ∀ e ∈ m, e.1.res = none → e.1.id ≠ i := by
    intro e he hn h
    have := (a1 e he hn).1
    rw [h, hc] at this; cases this
  refine ⟨?_, ?_, ?_, ?_, ?_, ?_, ?_, ?_⟩
  · intro e he hn
    simp only [List.mem_append, List.mem_singleton] at he
    rcases he with he | he
    · simp only [upd_ne _ _ (ne e he hn)]; exact a1 e he hn
    · subst he; simp
  · intro e he
    simp only [List.mem_append, List.mem_singleton] at he
    rcases he with he | he
    · exact a2 e he
    · subst he; simp
  · intro e he d hd
    simp only [List.mem_append, List.mem_singleton] at he
    rcases he with he | he
    · exact a3 e he d hd
    · subst he; cases hd
  · rw [List.pairwise_append]
    refine ⟨a4, by simp, ?_⟩
    intro y hy z hz h1 h2
    simp only [List.mem_singleton] at hz
    subst hz; exact ne y hy h1
  · intro j n h
    by_cases hj : j = i
    · subst hj; exact ⟨(⟨j, d, none⟩, 0), by simp, rfl, rfl⟩
    · simp only [upd_ne _ _ hj] at h
      obtain ⟨e, he, q⟩ := a5 j n h
      exact ⟨e, by simp [he], q⟩
  · simp only
    rw [List.filter_append, List.map_append, a6]
    congr 1
    · congr 1
      apply List.filter_congr
      intro e he
      by_cases hn : e.1.res = none
      · rw [upd_ne _ _ (ne e he hn)]
      · simp [hn]
    · simp
  · rw [List.pairwise_append]
    refine ⟨?_, by simp, ?_⟩
    · refine List.Pairwise.imp_of_mem ?_ a7
      intro x y hx hy h e1 e2
      simp only [upd_ne _ _ (ne x hx e1)] at e2
      exact h e1 e2
    · intro y hy z hz _ _
      simp only [List.mem_singleton] at hz
      subst hz; rfl
  · rw [List.flatMap_append, a8]; simp

/-- The queue without one of the waiting. -/
theorem erase_queue {α : Type} {m : List α} {q : α → Bool} {f : α → Nat} (i : Nat)
    (hn : ((m.filter q).map f).Nodup) :
    ((m.filter q).map f).erase i = (m.filter fun e => q e && decide (f e ≠ i)).map f := by
  rw [hn.erase_eq_filter, List.filter_map, List.filter_filter]
  congr 1
  apply List.filter_congr
  intro e _
  rw [Bool.and_comm]
  congr 1
  by_cases h : f e = i <;> simp [h]

/-- A read returns. -/
theorem RI.readWake {s : Sync} {m : List (Rd × List UInt8)} {c : List UInt8} (b : Base s) (x : RI s m c) {i rv : Nat}
    (hc : s.call i = .read) : ∃ r k d, (s.readWake i rv).2 = .ret r k d
    ∧ (m.map fun e => if e.1.id = i ∧ e.1.res = none then (⟨i, some d⟩, e.2) else e).map (·.1)
      = (m.map (·.1)).map (fun r => if r.id = i ∧ r.res = none then ⟨i, some d⟩ else r)
    ∧ RI (s.readWake i rv).1 (m.map fun e => if e.1.id = i ∧ e.1.res = none then (⟨i, some d⟩, e.2) else e) c := by
  obtain ⟨a1, a2, a3, a4, a5, a6, a7⟩ := x
  obtain ⟨e0, he0, hi0, hn0⟩ := a4 i hc
  obtain ⟨g1, g2, g3, g4⟩ := a1 e0 he0 hn0
  rw [hi0] at g1 g2 g3 g4
  have only : ∀ e ∈ m, e.1.id = i → e.1.res = none → e = e0 := by
    intro e he hi hn
    apply Classical.byContradiction
    intro hne
    have key : ∀ l : List (Rd × List UInt8), l.Pairwise (fun x y => x.1.res = none → y.1.res = none → x.1.id ≠ y.1.id) →
        e ∈ l → e0 ∈ l → False := by
      intro l hl
      induction hl with
      | nil => intro h; cases h
      | @cons a l h1 h2 ih =>
        intro m1 m2
        rcases List.mem_cons.mp m1 with q1 | q1
        · rcases List.mem_cons.mp m2 with q2 | q2
          · exact hne (q1.trans q2.symm)
          · subst q1; exact h1 e0 q2 hn hn0 (hi.trans hi0.symm)
        · rcases List.mem_cons.mp m2 with q2 | q2
          · subst q2; exact h1 e q1 hn0 hn (hi0.trans hi.symm)
          · exact ih q1 q2
    exact key m a3 he he0
  have hev : ∃ r k d, (s.readWake i rv).2 = .ret r k d ∧ e0.2 = d := by
    simp only [Sync.readWake]
    by_cases he : (s.op i).err = 0
    · cases hq : (s.op i).queued with
      | true => exact ⟨rv, some 0, [], by simp [he], g2 hq⟩
      | false => exact ⟨rv, some (s.op i).len, _, by simp [he], g4 hq he⟩
    · have hq : (s.op i).queued = false := by
        cases hq : (s.op i).queued with
        | false => rfl
        | true => exact absurd (b.rd i (b.rq i hc hq)).2.2 he
      exact ⟨(s.op i).err, none, [], by simp [he], g3 hq he⟩
  obtain ⟨r, k, d, h1, h2⟩ := hev
  refine ⟨r, k, d, h1, ?_, ?_⟩
  · rw [List.map_map, List.map_map]
    apply List.map_congr_left
    intro e _
    simp only [Function.comp]
    split <;> rfl
  have tr : (s.readWake i rv).1.readops = (if (s.op i).err = 0 ∧ (s.op i).queued = true then s.readops.erase i else s.readops)
      ∧ (s.readWake i rv).1.op = s.op ∧ (s.readWake i rv).1.call = upd s.call i .none := by
    simp only [Sync.readWake]
    refine ⟨?_, ?_, ?_⟩ <;> split <;> split <;> rfl
  obtain ⟨t1, t2, t3⟩ := tr
  have mem' : ∀ e', e' ∈ (m.map fun e => if e.1.id = i ∧ e.1.res = none then ((⟨i, some d⟩ : Rd), e.2) else e) →
      (e' = (⟨i, some d⟩, e0.2)) ∨ (e' ∈ m ∧ ¬ (e'.1.id = i ∧ e'.1.res = none)) := by
    intro e' h
    rw [List.mem_map] at h
    obtain ⟨e, he, q⟩ := h
    split at q
    · rename_i hh; left; rw [← q, only e he hh.1 hh.2]
    · rename_i hh; right; subst q; exact ⟨he, hh⟩
  refine ⟨?_, ?_, ?_, ?_, ?_, ?_, ?_⟩
  · intro e he hn
    rcases mem' e he with rfl | ⟨hm, hne⟩
    · cases hn
    · have hni : e.1.id ≠ i := fun h => hne ⟨h, hn⟩
      rw [t2, t3, upd_ne _ _ hni]
      exact a1 e hm hn
  · intro e he d' hd
    rcases mem' e he with rfl | ⟨hm, hne⟩
    · simp only [Option.some.injEq] at hd; rw [← hd]; exact h2
    · exact a2 e hm d' hd
  · rw [List.pairwise_map]
    refine a3.imp ?_
    intro x y h q1 q2
    split at q1
    · cases q1
    · split at q2
      · cases q2
      · rw [if_neg ‹_›, if_neg ‹_›]; exact h q1 q2
  · intro j hj
    rw [t3] at hj
    have hji : j ≠ i := by rintro rfl; rw [upd_same] at hj; cases hj
    rw [upd_ne _ _ hji] at hj
    obtain ⟨e, he, q1, q2⟩ := a4 j hj
    refine ⟨e, ?_, q1, q2⟩
    rw [List.mem_map]
    exact ⟨e, he, by rw [if_neg (fun h => hji (q1.symm.trans h.1))]⟩
  · rw [t1, t2, List.filter_map, List.map_map]
    have left : (if (s.op i).err = 0 ∧ (s.op i).queued = true then s.readops.erase i else s.readops) = s.readops.erase i := by
      split
      · rfl
      · rename_i hh
        rw [List.erase_of_not_mem]
        intro hm
        have := b.rd i hm
        exact hh ⟨this.2.2, this.2.1⟩
    have hnd := b.rn
    rw [a5] at hnd
    rw [left, a5, erase_queue i hnd]
    have : ∀ l : List (Rd × List UInt8),
        (l.filter fun e => (decide (e.1.res = none) && (s.op e.1.id).queued) && decide (e.1.id ≠ i)).map (·.1.id)
        = (l.filter ((fun e => decide (e.1.res = none) && (s.op e.1.id).queued) ∘
            fun e => if e.1.id = i ∧ e.1.res = none then ((⟨i, some d⟩ : Rd), e.2) else e)).map
          ((·.1.id) ∘ fun e => if e.1.id = i ∧ e.1.res = none then ((⟨i, some d⟩ : Rd), e.2) else e) := by
      intro l
      induction l with
      | nil => rfl
      | cons a l ih =>
        rw [List.filter_cons, List.filter_cons]
        simp only [Function.comp]
        by_cases h : a.1.id = i
        · by_cases hr : a.1.res = none
          · simp only [h, hr, and_self, if_true, ne_eq, not_true_eq_false, decide_false, Bool.and_false,
              Bool.false_eq_true, if_false, reduceCtorEq, Bool.false_and]
            exact ih
          · simp only [h, hr, and_false, if_false, decide_false, Bool.false_and, Bool.false_eq_true]
            exact ih
        · simp only [h, false_and, if_false, ne_eq, not_false_eq_true, decide_true, Bool.and_true]
          split
          · rw [List.map_cons, List.map_cons, ih]
            simp only [Function.comp, h, false_and, if_false]
          · exact ih
    exact this m
  · rw [List.pairwise_map]
    refine a6.imp ?_
    intro x y h q1 q2
    split at q1
    · cases q1
    · rw [if_neg ‹_›, t2] at q2
      have := h q1 q2
      split <;> exact this
  · rw [a7, List.flatMap_map]
    congr 1
    funext e
    split <;> rfl

/-- A write returns. -/
theorem WI.writeWake {s : Sync} {m : List (Wr × Nat)} {c : List UInt8} (b : Base s) (x : WI s m c) {i n rv : Nat}
    (hc : s.call i = .write n) : ∃ r k d, (s.writeWake i n rv).2 = .ret r k d
    ∧ (m.map fun e => if e.1.id = i ∧ e.1.res = none then (⟨i, e.1.data, some k⟩, e.2) else e).map (·.1)
      = (m.map (·.1)).map (fun r => if r.id = i ∧ r.res = none then ⟨i, r.data, some k⟩ else r)
    ∧ WI (s.writeWake i n rv).1 (m.map fun e => if e.1.id = i ∧ e.1.res = none then (⟨i, e.1.data, some k⟩, e.2) else e) c := by
  obtain ⟨a1, a2, a3, a4, a5, a6, a7, a8⟩ := x
  obtain ⟨e0, he0, hi0, hn0⟩ := a5 i n hc
  obtain ⟨g1, g2, g3⟩ := a1 e0 he0 hn0
  rw [hi0] at g1 g2 g3
  have hlen : n = e0.1.data.length := by rw [hc] at g1; injection g1
  have only : ∀ e ∈ m, e.1.id = i → e.1.res = none → e = e0 := by
    intro e he hi hn
    apply Classical.byContradiction
    intro hne
    have key : ∀ l : List (Wr × Nat), l.Pairwise (fun x y => x.1.res = none → y.1.res = none → x.1.id ≠ y.1.id) →
        e ∈ l → e0 ∈ l → False := by
      intro l hl
      induction hl with
      | nil => intro h; cases h
      | @cons a l h1 h2 ih =>
        intro m1 m2
        rcases List.mem_cons.mp m1 with q1 | q1
        · rcases List.mem_cons.mp m2 with q2 | q2
          · exact hne (q1.trans q2.symm)
          · subst q1; exact h1 e0 q2 hn hn0 (hi.trans hi0.symm)
        · rcases List.mem_cons.mp m2 with q2 | q2
          · subst q2; exact h1 e q1 hn0 hn (hi0.trans hi.symm)
          · exact ih q1 q2
    exact key m a4 he he0
  have hev : ∃ r k d, (s.writeWake i n rv).2 = .ret r k d ∧ ∀ q, k = some q → e0.2 = q := by
    simp only [Sync.writeWake]
    by_cases he : (s.op i).err = 0
    · exact ⟨rv, some (n - (s.op i).len), [], by simp [he], fun q h => by injection h with h; omega⟩
    · exact ⟨(s.op i).err, none, [], by simp [he], fun q h => by cases h⟩
  obtain ⟨r, k, d, h1, h2⟩ := hev
  refine ⟨r, k, d, h1, ?_, ?_⟩
  · rw [List.map_map, List.map_map]
    apply List.map_congr_left
    intro e _
    simp only [Function.comp]
    split <;> rfl
  have tr : (s.writeWake i n rv).1.writeops = (if (s.op i).queued = true then s.writeops.erase i else s.writeops)
      ∧ (s.writeWake i n rv).1.op = s.op ∧ (s.writeWake i n rv).1.call = upd s.call i .none := by
    simp only [Sync.writeWake]
    refine ⟨?_, ?_, ?_⟩ <;> split <;> split <;> rfl
  obtain ⟨t1, t2, t3⟩ := tr
  have mem' : ∀ e', e' ∈ (m.map fun e => if e.1.id = i ∧ e.1.res = none then ((⟨i, e.1.data, some k⟩ : Wr), e.2) else e) →
      (e' = (⟨i, e0.1.data, some k⟩, e0.2)) ∨ (e' ∈ m ∧ ¬ (e'.1.id = i ∧ e'.1.res = none)) := by
    intro e' h
    rw [List.mem_map] at h
    obtain ⟨e, he, q⟩ := h
    split at q
    · rename_i hh; left; rw [← q, only e he hh.1 hh.2]
    · rename_i hh; right; subst q; exact ⟨he, hh⟩
  refine ⟨?_, ?_, ?_, ?_, ?_, ?_, ?_, ?_⟩
  · intro e he hn
    rcases mem' e he with rfl | ⟨hm, hne⟩
    · cases hn
    · have hni : e.1.id ≠ i := fun h => hne ⟨h, hn⟩
      rw [t2, t3, upd_ne _ _ hni]
      exact a1 e hm hn
  · intro e he
    rcases mem' e he with rfl | ⟨hm, hne⟩
    · exact a2 e0 he0
    · exact a2 e hm
  · intro e he d' hd
    rcases mem' e he with rfl | ⟨hm, hne⟩
    · simp only [Option.some.injEq] at hd; exact h2 d' hd
    · exact a3 e hm d' hd
  · rw [List.pairwise_map]
    refine a4.imp ?_
    intro x y h q1 q2
    split at q1
    · cases q1
    · split at q2
      · cases q2
      · rw [if_neg ‹_›, if_neg ‹_›]; exact h q1 q2
  · intro j n' hj
    rw [t3] at hj
    have hji : j ≠ i := by rintro rfl; rw [upd_same] at hj; cases hj
    rw [upd_ne _ _ hji] at hj
    obtain ⟨e, he, q1, q2⟩ := a5 j n' hj
    refine ⟨e, ?_, q1, q2⟩
    rw [List.mem_map]
    exact ⟨e, he, by rw [if_neg (fun h => hji (q1.symm.trans h.1))]⟩
  · rw [t1, t2, List.filter_map, List.map_map]
    have left : (if (s.op i).queued = true then s.writeops.erase i else s.writeops) = s.writeops.erase i := by
      split
      · rfl
      · rename_i hh
        rw [List.erase_of_not_mem]
        intro hm
        have := b.wr i hm
        exact hh this.2.1
    have hnd := b.wn
    rw [a6] at hnd
    rw [left, a6, erase_queue i hnd]
    have : ∀ l : List (Wr × Nat),
        (l.filter fun e => (decide (e.1.res = none) && (s.op e.1.id).queued) && decide (e.1.id ≠ i)).map (·.1.id)
        = (l.filter ((fun e => decide (e.1.res = none) && (s.op e.1.id).queued) ∘
            fun e => if e.1.id = i ∧ e.1.res = none then ((⟨i, e.1.data, some k⟩ : Wr), e.2) else e)).map
          ((·.1.id) ∘ fun e => if e.1.id = i ∧ e.1.res = none then ((⟨i, e.1.data, some k⟩ : Wr), e.2) else e) := by
      intro l
      induction l with
      | nil => rfl
      | cons a l ih =>
        rw [List.filter_cons, List.filter_cons]
        simp only [Function.comp]
        by_cases h : a.1.id = i
        · by_cases hr : a.1.res = none
          · simp only [h, hr, and_self, if_true, ne_eq, not_true_eq_false, decide_false, Bool.and_false,
              Bool.false_eq_true, if_false, reduceCtorEq, Bool.false_and]
            exact ih
          · simp only [h, hr, and_false, if_false, decide_false, Bool.false_and, Bool.false_eq_true]
            exact ih
        · simp only [h, false_and, if_false, ne_eq, not_false_eq_true, decide_true, Bool.and_true]
          split
          · rw [List.map_cons, List.map_cons, ih]
            simp only [Function.comp, h, false_and, if_false]
          · exact ih
    exact this m
  · rw [List.pairwise_map]
    refine a7.imp ?_
    intro x y h q1 q2
    split at q1
    · cases q1
    · rw [if_neg ‹_›, t2] at q2
      have := h q1 q2
      split <;> exact this
  · rw [a8, List.flatMap_map]
    congr 1
    funext e
    split <;> rfl

end Gensio.SyncIo
