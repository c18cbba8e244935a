import Verif.Lemmas.SyncIo

/-!
# Synchronous reads and writes: C40, C41

C40 is false when two reads wait and more bytes come than the first has room for (`C40_violated`, `C40_second`): the second
read is given the same bytes again and those after are lost.  It is proved for all other runs (`C40_partial`).

C41 is proved for the order of the bytes passed on and the counts of all writes that return no error (`C41_partial`); a
write that fails after part of its data has been passed on does not say how much (`C41_error_violated`).
-/

namespace Gensio.SyncIo

/-- At a read event only one read waits, or the first that waits has room for all that is offered. -/
def Fit (s : Sync) : Act → Prop
  | .event d => ∀ i l, s.readops = i :: l → l = [] ∨ d.length ≤ (s.op i).len
  | _ => True

/-- A run in which every read event is one of these. -/
inductive FitRun (s0 : Sync) : Sync → Hist → Prop
  | nil : FitRun s0 s0 []
  | next {s t : Sync} {h : Hist} {a : Act} {e : Ev} : FitRun s0 s h → Fit s a → s.step a = some (t, e) →
    FitRun s0 t (h ++ [(a, e)])

theorem Base.init (op : Nat → Op) : Base (Sync.init op) := by
  refine ⟨?_, ?_, ?_, ?_, ?_, ?_⟩ <;> simp [Sync.init]

theorem RI.init (op : Nat → Op) : RI (Sync.init op) [] [] := by
  refine ⟨?_, ?_, ?_, ?_, ?_, ?_, ?_⟩ <;> simp [Sync.init]

theorem WI.init (op : Nat → Op) : WI (Sync.init op) [] [] := by
  refine ⟨?_, ?_, ?_, ?_, ?_, ?_, ?_, ?_⟩ <;> simp [Sync.init]

theorem reads_snoc (h : Hist) (x : Act × Ev) : reads (h ++ [x]) = rdStep (reads h) x := by
  simp [reads, List.foldl_append]

theorem writes_snoc (h : Hist) (x : Act × Ev) : writes (h ++ [x]) = wrStep (writes h) x := by
  simp [writes, List.foldl_append]

/-- The ways in which the loop of the write event leaves the reads. -/
theorem RI.writeLoop {s : Sync} {l : List Nat} {ans : List Ans} {m : List (Rd × List UInt8)} {c : List UInt8}
    (b : Base { s with writeops := l }) (x : RI { s with writeops := l } m c) (ha : .err 0 ∉ ans) :
    RI (s.writeLoop l ans).1 m c := by
  induction l generalizing s ans with
  | nil => exact x
  | cons i l ih =>
    unfold Sync.writeLoop
    cases ans with
    | nil => exact x
    | cons a ans =>
      cases a with
      | err e =>
        have he : e ≠ 0 := by rintro rfl; simp at ha
        obtain ⟨a1, a2, a3, a4⟩ := setErr_frame { s with writeops := i :: l } e
        apply RI.flush
        · obtain ⟨b1, b2, b3, b4, b5, b6⟩ := b
          exact ⟨by simp only [a1, a2, a3]; exact b1, by simp only [a1, a2, a4]; exact b2, by simp only [a1, a2, a3]; exact b3,
            by simp only [a1, a2, a4]; exact b4, by simp only [a3]; exact b5, by simp only [a4]; exact b6⟩
        · exact x.frame (fun j => by rw [a2]) (fun j _ => by rw [a1]) a3
        · exact setErr_ne he
      | took n =>
        obtain ⟨⟨k, hk⟩, -⟩ := b.wr i (by simp)
        simp only at hk
        have b0 := b
        have ne : ∀ j, s.call j = .read → j ≠ i := by rintro j h rfl; rw [hk] at h; cases h
        simp only
        split
        · rename_i hz0
          apply ih
          · have := Base.writeLoop (ans := [.took n]) b
            simp only [Sync.writeLoop] at this
            rw [if_pos hz0] at this
            cases l with
            | nil => exact this
            | cons _ _ => exact this
          · exact x.frame (fun j => Iff.rfl) (fun j h => upd_ne _ _ (ne j h)) rfl
          · exact fun h => ha (List.mem_cons_of_mem _ h)
        · exact x.frame (fun j => Iff.rfl) (fun j h => upd_ne _ _ (ne j h)) rfl

theorem consumed_snoc (h : Hist) (a : Act) (e : Ev) : consumed (h ++ [(a, e)]) = consumed h ++
    (match (a, e) with | (.event d, .consumed n) => d.take n | _ => []) := by
  simp only [consumed, List.flatMap_append, List.flatMap_singleton]
  cases a <;> cases e <;> rfl

theorem passed_snoc (h : Hist) (a : Act) (e : Ev) : passed (h ++ [(a, e)]) = passed h ++
    (match (a, e) with | (.ready _, .passed d) => d | _ => []) := by
  simp only [passed, List.flatMap_append, List.flatMap_singleton]
  cases a <;> cases e <;> rfl

theorem base_err {s : Sync} (x : Base s) (k : Nat) : Base { s.setErr k with readEn := false } ∧ Base (s.setErr k) := by
  obtain ⟨a1, a2, a3, a4⟩ := setErr_frame s k
  obtain ⟨b1, b2, b3, b4, b5, b6⟩ := x
  constructor <;>
  exact ⟨by simp only [a1, a2, a3]; exact b1, by simp only [a1, a2, a4]; exact b2, by simp only [a1, a2, a3]; exact b3,
        by simp only [a1, a2, a4]; exact b4, by simp only [a3]; exact b5, by simp only [a4]; exact b6⟩

theorem RI.step {s t : Sync} {a : Act} {e : Ev} {m : List (Rd × List UInt8)} {h : Hist} (b : Base s) (x : RI s m (consumed h))
    (hm : m.map (·.1) = reads h) (fit : Fit s a) (hs : s.step a = some (t, e)) :
    ∃ m', m'.map (·.1) = reads (h ++ [(a, e)]) ∧ RI t m' (consumed (h ++ [(a, e)])) := by
  rw [reads_snoc, consumed_snoc]
  cases a with
  | event d =>
    simp only [Sync.step, Option.some.injEq] at hs
    have he : ∃ n, e = .consumed n := by
      unfold Sync.event at hs
      split at hs
      · exact ⟨_, (Prod.mk.inj hs).2.symm⟩
      · exact ⟨_, (Prod.mk.inj hs).2.symm⟩
    obtain ⟨n, rfl⟩ := he
    obtain ⟨m', h1, h2⟩ := x.event b d fit hs
    exact ⟨m', h1.trans hm, h2⟩
  | eventErr k =>
    simp only [Sync.step] at hs
    split at hs
    · cases hs
    · rename_i hk
      simp only [Option.some.injEq, Prod.mk.injEq] at hs
      obtain ⟨rfl, rfl⟩ := hs
      refine ⟨m, hm, ?_⟩
      rw [List.append_nil]
      obtain ⟨a1, a2, a3, a4⟩ := setErr_frame s k
      apply RI.flush (base_err b k).1
      · exact x.frame (fun j => by simp only [a2]) (fun j _ => by simp only [a1]) a3
      · exact setErr_ne hk
  | close =>
    simp only [Sync.step, Option.some.injEq, Prod.mk.injEq] at hs
    obtain ⟨rfl, rfl⟩ := hs
    refine ⟨m, hm, ?_⟩
    rw [List.append_nil]
    obtain ⟨a1, a2, a3, a4⟩ := setErr_frame s eLocalClosed
    apply RI.flush (base_err b eLocalClosed).2
    · exact x.frame (fun j => by simp only [a2]) (fun j _ => by simp only [a1]) a3
    · exact setErr_ne (by decide)
  | ready ans =>
    simp only [Sync.step] at hs
    split at hs
    · cases hs
    · rename_i ha
      simp only [Option.some.injEq, Sync.ready] at hs
      refine ⟨m, hm, ?_⟩
      simp only [List.append_nil]
      split at hs
      · obtain ⟨rfl, -⟩ := Prod.mk.inj hs
        exact x.frame (fun _ => Iff.rfl) (fun _ _ => rfl) rfl
      · simp only [Prod.mk.injEq] at hs
        have y : RI (s.writeLoop s.writeops ans).1 m (consumed h) := RI.writeLoop b x ha
        rw [← hs.1]
        split
        · exact y.frame (fun _ => Iff.rfl) (fun _ _ => rfl) rfl
        · exact y
  | readS i n =>
    simp only [Sync.step] at hs
    split at hs
    · rename_i hc
      simp only [Option.some.injEq, Sync.readS] at hs
      simp only [List.append_nil]
      split at hs
      · obtain ⟨rfl, rfl⟩ := Prod.mk.inj hs; exact ⟨m, hm, x⟩
      · split at hs
        · obtain ⟨rfl, rfl⟩ := Prod.mk.inj hs; exact ⟨m, hm, x⟩
        · obtain ⟨rfl, rfl⟩ := Prod.mk.inj hs
          exact ⟨_, by rw [List.map_append, hm]; rfl, x.readS hc⟩
    · cases hs
  | writeS i d =>
    simp only [Sync.step] at hs
    split at hs
    · rename_i hc
      simp only [Option.some.injEq, Sync.writeS] at hs
      simp only [List.append_nil]
      refine ⟨m, hm, ?_⟩
      split at hs
      · obtain ⟨rfl, rfl⟩ := Prod.mk.inj hs; exact x
      · split at hs
        · obtain ⟨rfl, rfl⟩ := Prod.mk.inj hs; exact x
        · obtain ⟨rfl, rfl⟩ := Prod.mk.inj hs
          refine x.frame (fun j => ?_) (fun j hj => ?_) rfl
          · by_cases h : j = i
            · subst h; simp [hc]
            · simp only [upd_ne _ _ h]
          · have h : j ≠ i := by rintro rfl; rw [hc] at hj; cases hj
            simp only [upd_ne _ _ h]
    · cases hs
  | readWake i rv =>
    simp only [Sync.step] at hs
    split at hs
    · rename_i hc
      simp only [Option.some.injEq] at hs
      obtain ⟨r, k, d, h1, h2, h3⟩ := x.readWake b (rv := rv) hc
      rw [hs] at h1 h3
      simp only at h1 h3
      subst h1
      exact ⟨_, by rw [h2, hm]; rfl, by simpa using h3⟩
    · cases hs
  | writeWake i rv =>
    simp only [Sync.step] at hs
    split at hs
    · rename_i n hc
      simp only [Option.some.injEq] at hs
      refine ⟨m, ?_, ?_⟩
      · rw [hm]; rfl
      · simp only [List.append_nil]
        have h1 : t = (s.writeWake i n rv).1 := by rw [hs]
        rw [h1]
        refine x.frame (fun j => ?_) (fun j hj => ?_) ?_
        · by_cases h : j = i
          · subst h; simp [Sync.writeWake, hc]
          · simp only [Sync.writeWake]; split <;> split <;> simp [upd_ne _ _ h]
        · simp only [Sync.writeWake]; split <;> split <;> rfl
        · simp only [Sync.writeWake]; split <;> split <;> rfl
    · cases hs

theorem WI.step {s t : Sync} {a : Act} {e : Ev} {m : List (Wr × Nat)} {h : Hist} (b : Base s) (x : WI s m (passed h))
    (hm : m.map (·.1) = writes h) (hs : s.step a = some (t, e)) :
    ∃ m', m'.map (·.1) = writes (h ++ [(a, e)]) ∧ WI t m' (passed (h ++ [(a, e)])) := by
  rw [writes_snoc, passed_snoc]
  cases a with
  | event d =>
    simp only [Sync.step, Option.some.injEq] at hs
    refine ⟨m, ?_, ?_⟩
    · rw [hm]; rfl
    simp only [List.append_nil]
    have ht : t = (s.event d).1 := by rw [hs]
    rw [ht]
    unfold Sync.event
    split
    · exact x.frame (fun _ _ => Iff.rfl) (fun _ _ _ => rfl) rfl
    · simp only
      obtain ⟨f1, f2, f3, f4, f5⟩ := readLoop_frame d d.length s.readops s d.length
      have y : WI (s.readLoop d d.length s.readops d.length).1 m (passed h) := by
        refine x.frame (fun j n => by rw [f1]) (fun j n hj => ?_) f2
        apply f4
        intro hr
        rw [(b.rd j hr).1] at hj; cases hj
      split
      · exact y.frame (fun _ _ => Iff.rfl) (fun _ _ _ => rfl) rfl
      · exact y
  | eventErr k =>
    simp only [Sync.step] at hs
    split at hs
    · cases hs
    · rename_i hk
      simp only [Option.some.injEq, Prod.mk.injEq] at hs
      obtain ⟨rfl, rfl⟩ := hs
      refine ⟨m, hm, ?_⟩
      rw [List.append_nil]
      obtain ⟨a1, a2, a3, a4⟩ := setErr_frame s k
      apply WI.flush (base_err b k).1
      exact x.frame (fun j n => by simp only [a2]) (fun j n _ => by simp only [a1]) a4
  | close =>
    simp only [Sync.step, Option.some.injEq, Prod.mk.injEq] at hs
    obtain ⟨rfl, rfl⟩ := hs
    refine ⟨m, hm, ?_⟩
    rw [List.append_nil]
    obtain ⟨a1, a2, a3, a4⟩ := setErr_frame s eLocalClosed
    apply WI.flush (base_err b eLocalClosed).2
    exact x.frame (fun j n => by simp only [a2]) (fun j n _ => by simp only [a1]) a4
  | ready ans =>
    simp only [Sync.step] at hs
    split at hs
    · cases hs
    · rename_i ha
      simp only [Option.some.injEq, Sync.ready] at hs
      split at hs
      · obtain ⟨rfl, rfl⟩ := Prod.mk.inj hs
        refine ⟨m, hm, ?_⟩
        simp only [List.append_nil]
        exact x.frame (fun _ _ => Iff.rfl) (fun _ _ _ => rfl) rfl
      · simp only [Prod.mk.injEq] at hs
        obtain ⟨m', h1, h2⟩ := WI.writeLoop (ans := ans) (s := s) (l := s.writeops) b x
        obtain ⟨hs1, rfl⟩ := hs
        refine ⟨m', h1.trans hm, ?_⟩
        rw [← hs1]
        split
        · exact h2.frame (fun _ _ => Iff.rfl) (fun _ _ _ => rfl) rfl
        · exact h2
  | writeS i d =>
    simp only [Sync.step] at hs
    split at hs
    · rename_i hc
      simp only [Option.some.injEq, Sync.writeS] at hs
      simp only [List.append_nil]
      split at hs
      · obtain ⟨rfl, rfl⟩ := Prod.mk.inj hs; exact ⟨m, hm, x⟩
      · split at hs
        · obtain ⟨rfl, rfl⟩ := Prod.mk.inj hs; exact ⟨m, hm, x⟩
        · obtain ⟨rfl, rfl⟩ := Prod.mk.inj hs
          exact ⟨_, by rw [List.map_append, hm]; rfl, x.writeS hc⟩
    · cases hs
  | readS i n =>
    simp only [Sync.step] at hs
    split at hs
    · rename_i hc
      simp only [Option.some.injEq, Sync.readS] at hs
      simp only [List.append_nil]
      refine ⟨m, hm, ?_⟩
      split at hs
      · obtain ⟨rfl, rfl⟩ := Prod.mk.inj hs; exact x
      · split at hs
        · obtain ⟨rfl, rfl⟩ := Prod.mk.inj hs; exact x
        · obtain ⟨rfl, rfl⟩ := Prod.mk.inj hs
          refine x.frame (fun j n => ?_) (fun j n hj => ?_) rfl
          · by_cases h : j = i
            · subst h; simp [hc]
            · simp only [upd_ne _ _ h]
          · have h : j ≠ i := by rintro rfl; rw [hc] at hj; cases hj
            simp only [upd_ne _ _ h]
    · cases hs
  | writeWake i rv =>
    simp only [Sync.step] at hs
    split at hs
    · rename_i n hc
      simp only [Option.some.injEq] at hs
      obtain ⟨r, k, d, h1, h2, h3⟩ := x.writeWake b (rv := rv) hc
      rw [hs] at h1 h3
      simp only at h1 h3
      subst h1
      exact ⟨_, by rw [h2, hm]; rfl, by simpa using h3⟩
    · cases hs
  | readWake i rv =>
    simp only [Sync.step] at hs
    split at hs
    · rename_i hc
      simp only [Option.some.injEq] at hs
      refine ⟨m, ?_, ?_⟩
      · rw [hm]; rfl
      · simp only [List.append_nil]
        have h1 : t = (s.readWake i rv).1 := by rw [hs]
        rw [h1]
        refine x.frame (fun j n => ?_) (fun j n hj => ?_) ?_
        · by_cases h : j = i
          · subst h; simp [Sync.readWake, hc]
          · simp only [Sync.readWake]; split <;> split <;> simp [upd_ne _ _ h]
        · simp only [Sync.readWake]; split <;> split <;> rfl
        · simp only [Sync.readWake]; split <;> split <;> rfl
    · cases hs

/-- **C40** for the runs in which at each read event one read waits or the first has room for all: when no read is waiting
at the end, what the reads returned, in the order in which they were called, is what was taken from the gensio.  The other
runs are missing; C40 is false for them. -/
theorem C40_partial (op : Nat → Op) (s : Sync) (h : Hist) (r : FitRun (Sync.init op) s h)
    (quiet : ∀ x ∈ reads h, x.res ≠ none) : consumed h = (reads h).flatMap fun x => x.res.getD [] := by
  have key : Base s ∧ ∃ m, m.map (·.1) = reads h ∧ RI s m (consumed h) := by
    clear quiet
    induction r with
    | nil => exact ⟨Base.init op, [], rfl, RI.init op⟩
    | next _ fit hs ih =>
      obtain ⟨b, m, hm, x⟩ := ih
      exact ⟨b.step hs, x.step b hm fit hs⟩
  obtain ⟨-, m, hm, x⟩ := key
  rw [x.all, ← hm, List.flatMap_map]
  have : ∀ e ∈ m, e.2 = e.1.res.getD [] := by
    intro e he
    have hq := quiet e.1 (by rw [← hm]; exact List.mem_map_of_mem he)
    cases hr : e.1.res with
    | none => exact absurd hr hq
    | some d => exact x.ret e he d hr
  clear x hm
  induction m with
  | nil => rfl
  | cons a m ih =>
    rw [List.flatMap_cons, List.flatMap_cons, this a (by simp), ih (fun e he => this e (by simp [he]))]

/-- **C41** for writes that return no error: there is a number of bytes for each write such that what was passed to the
gensio is these first bytes of each write, in the order of the calls, and each write that has returned without an error
returned this number.  Missing is the count of writes that return an error; there is none. -/
theorem C41_partial (op : Nat → Op) (s : Sync) (h : Hist) (r : Run (Sync.init op) s h) :
    ∃ ns : List Nat, ns.length = (writes h).length
      ∧ passed h = ((writes h).zip ns).flatMap (fun p => p.1.data.take p.2)
      ∧ ∀ p ∈ (writes h).zip ns, p.2 ≤ p.1.data.length ∧ ∀ c, p.1.res = some (some c) → c = p.2 := by
  have key : Base s ∧ ∃ m, m.map (·.1) = writes h ∧ WI s m (passed h) := by
    induction r with
    | nil => exact ⟨Base.init op, [], rfl, WI.init op⟩
    | next _ hs ih =>
      obtain ⟨b, m, hm, x⟩ := ih
      exact ⟨b.step hs, x.step b hm hs⟩
  obtain ⟨-, m, hm, x⟩ := key
  have hz : (writes h).zip (m.map (·.2)) = m := by
    rw [← hm]; exact (List.zip_of_prod rfl rfl).symm
  refine ⟨m.map (·.2), by rw [← hm]; simp, ?_, ?_⟩
  · rw [hz]; exact x.all
  · rw [hz]
    exact fun p hp => ⟨x.le p hp, fun c hc => (x.ret p hp c hc).symm⟩

/-- Executing steps. -/
def exec (s : Sync) : List Act → Option (Sync × Hist)
  | [] => some (s, [])
  | a :: l =>
    match s.step a with
    | none => none
    | some (t, e) => (exec t l).map fun p => (p.1, (a, e) :: p.2)

theorem exec_run {s0 s : Sync} {h : Hist} (r : Run s0 s h) {l : List Act} {t : Sync} {k : Hist}
    (e : exec s l = some (t, k)) : Run s0 t (h ++ k) := by
  induction l generalizing s h k with
  | nil => simp only [exec, Option.some.injEq, Prod.mk.injEq] at e; obtain ⟨rfl, rfl⟩ := e; simpa using r
  | cons a l ih =>
    simp only [exec] at e
    split at e
    · cases e
    · rename_i u ev hs
      simp only [Option.map_eq_some_iff, Prod.mk.injEq] at e
      obtain ⟨⟨t', k'⟩, e1, rfl, rfl⟩ := e
      have := ih (r.next hs) e1
      simpa using this

def s0 : Sync := Sync.init fun _ => ⟨false, [], 0, 0⟩

/-- Two reads of four bytes wait and eight bytes come. -/
def twoReads : List Act := [.readS 1 4, .readS 2 4, .event [1, 2, 3, 4, 5, 6, 7, 8], .readWake 1 0, .readWake 2 0]

/-- **C40 is false**: with two reads of four bytes waiting and eight bytes offered, all eight bytes are taken, both reads
return the first four and the last four are lost. -/
theorem C40_violated : ∃ s h, Run s0 s h ∧ reads h = [⟨1, some [1, 2, 3, 4]⟩, ⟨2, some [1, 2, 3, 4]⟩]
    ∧ consumed h = [1, 2, 3, 4, 5, 6, 7, 8] := by
  have h : (exec s0 twoReads).any (fun p => decide (reads p.2 = [⟨1, some [1, 2, 3, 4]⟩, ⟨2, some [1, 2, 3, 4]⟩])
      && decide (consumed p.2 = [1, 2, 3, 4, 5, 6, 7, 8])) = true := by decide +kernel
  rw [Option.any_eq_true] at h
  obtain ⟨⟨s, k⟩, e, h⟩ := h
  simp only [Bool.and_eq_true, decide_eq_true_eq] at h
  have r := exec_run .nil e
  exact ⟨s, k, by simpa using r, h.1, h.2⟩

/-- In general, when the first of the waiting reads has no room for all that is offered, the second one is given bytes from
the start again. -/
theorem C40_second (s : Sync) (i j : Nat) (rest : List Nat) (hr : s.readops = i :: j :: rest) (hij : i ≠ j)
    (hj : j ∉ rest) (hi : i ∉ rest) (d : List UInt8) (hd : (s.op i).len < d.length) :
    ((s.event d).1.op i).buf = d.take (s.op i).len
    ∧ ((s.event d).1.op j).buf = d.take (min (d.length - (s.op i).len) (s.op j).len) := by
  have hne : d.length ≠ 0 := by omega
  unfold Sync.event
  rw [if_neg (by rw [hr]; simp)]
  simp only [hr]
  have : ∀ (u : Sync) (b : Prop) [Decidable b], (if b then { u with readEn := false } else u).op = u.op := by
    intro u b _; split <;> rfl
  rw [this]
  unfold Sync.readLoop
  rw [if_neg hne]
  unfold Sync.readLoop
  rw [if_neg hne]
  simp only
  constructor
  · rw [(readLoop_frame _ _ _ _ _).2.2.2.1 i hi]
    simp only
    rw [upd_ne _ _ hij, upd_same]
    simp only
    rw [Nat.min_eq_right (by omega)]
  · rw [(readLoop_frame _ _ _ _ _).2.2.2.1 j hj]
    simp only
    rw [upd_same]
    simp only
    rw [upd_ne _ _ (Ne.symm hij), Nat.min_eq_right (Nat.le_of_lt hd)]

/-- A read that waits behind another one returns nothing when the other one takes all, although its time is not up. -/
theorem C40_spurious : ∃ s h, Run s0 s h ∧ reads h = [⟨1, some [1, 2]⟩, ⟨2, some []⟩]
    ∧ h.map (·.1) = [.readS 1 4, .readS 2 4, .event [1, 2], .readWake 1 0, .readWake 2 0] := by
  have h : (exec s0 [.readS 1 4, .readS 2 4, .event [1, 2], .readWake 1 0, .readWake 2 0]).any
      (fun p => decide (reads p.2 = [⟨1, some [1, 2]⟩, ⟨2, some []⟩])
      && decide (p.2.map (·.1) = [.readS 1 4, .readS 2 4, .event [1, 2], .readWake 1 0, .readWake 2 0])) = true := by
    decide +kernel
  rw [Option.any_eq_true] at h
  obtain ⟨⟨s, k⟩, e, h⟩ := h
  simp only [Bool.and_eq_true, decide_eq_true_eq] at h
  have r := exec_run .nil e
  exact ⟨s, k, by simpa using r, h.1, h.2⟩

/-- **C41 is false for errors**: two bytes of a write are passed on, then the gensio fails; the write returns the error and
no count. -/
theorem C41_error_violated : ∃ s h, Run s0 s h ∧ writes h = [⟨1, [1, 2, 3, 4], some none⟩] ∧ passed h = [1, 2] := by
  have h : (exec s0 [.writeS 1 [1, 2, 3, 4], .ready [.took 2], .ready [.err 5], .writeWake 1 0]).any
      (fun p => decide (writes p.2 = [⟨1, [1, 2, 3, 4], some none⟩]) && decide (passed p.2 = [1, 2])) = true := by
    decide +kernel
  rw [Option.any_eq_true] at h
  obtain ⟨⟨s, k⟩, e, h⟩ := h
  simp only [Bool.and_eq_true, decide_eq_true_eq] at h
  have r := exec_run .nil e
  exact ⟨s, k, by simpa using r, h.1, h.2⟩

/-- Two writes, the first one runs out of time after three bytes. -/
example : (exec s0 [.writeS 1 [1, 2, 3, 4], .writeS 2 [5, 6], .ready [.took 3], .writeWake 1 0, .ready [.took 9],
    .writeWake 2 0]).map (fun p => (writes p.2, passed p.2))
    = some ([⟨1, [1, 2, 3, 4], some (some 3)⟩, ⟨2, [5, 6], some (some 2)⟩], [1, 2, 3, 5, 6]) := by decide +kernel

/-- Two reads, one after the other. -/
example : (exec s0 [.readS 1 2, .event [1, 2, 3], .readS 2 9, .event [3], .readWake 2 0, .readWake 1 0]).map
    (fun p => (reads p.2, consumed p.2)) = some ([⟨1, some [1, 2]⟩, ⟨2, some [3]⟩], [1, 2, 3]) := by decide +kernel

end Gensio.SyncIo
