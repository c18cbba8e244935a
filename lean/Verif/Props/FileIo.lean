import Verif.Lemmas.FileIo
/-!
# The file gensio: C153–C159
-/
namespace Gensio.FileIo

/-! ### C153: the count of a write -/

/-- With an output file: if a write succeeds, the bytes of the call that its count says, from the first
on, are what was added to the file; if not, nothing was. -/
theorem C153_written_partial (s : F) (sg : List (List UInt8)) (k : Option Nat) (ho : s.outf = true) :
    match (write s sg k).1 with
    | some n => 0 < n ∧ n ≤ sg.flatten.length ∧ (write s sg k).2.wrote = s.wrote ++ sg.flatten.take n
    | none => (write s sg k).2.wrote = s.wrote := by
  unfold write
  by_cases hs : s.st = .open
  · simp only [hs, ne_eq, not_true, if_false, ho]
    cases k with
    | none => rfl
    | some k =>
      dsimp only
      by_cases hn : min (max k 1) sg.flatten.length = 0
      · rw [if_pos hn]
      · rw [if_neg hn]
        exact ⟨Nat.pos_of_ne_zero hn, Nat.min_le_right _ _, rfl⟩
  · simp only [ne_eq, hs, not_false_eq_true, if_true]

/-- Without one, if all the parts are of the same length, the count is that of all the bytes. -/
theorem C153_dropped_partial (s : F) (sg : List (List UInt8)) (k : Option Nat) (hs : s.st = .open) (ho : s.outf = false) (n : Nat)
    (hl : ∀ x ∈ sg, x.length = n) : (write s sg k).1 = some sg.flatten.length := by
  unfold write
  rw [if_neg (by simp [hs]), if_pos (by simp [ho])]
  have : sg.flatten.length = sg.length * n := by
    clear ho hs
    induction sg with
    | nil => simp
    | cons a t ih =>
      have h1 := hl a (by simp)
      have h2 := ih (fun x hx => hl x (by simp [hx]))
      simp only [List.flatten_cons, List.length_append, h1, h2, List.length_cons]
      rw [Nat.add_mul]; omega
  cases sg with
  | nil => rfl
  | cons a t => rw [this, ← hl a (by simp)]; rfl

/-- A part of a write. -/
example : (write { F.new 10 true false true with st := .open, outf := true } [[1, 2], [3, 4]] (some 3)).1 = some 3 ∧
    (write { F.new 10 true false true with st := .open, outf := true } [[1, 2], [3, 4]] (some 3)).2.wrote = [1, 2, 3] := by decide +kernel

/-- Without an output file the length of the first part is counted for every part: of 251
bytes, 500 are said to be written. -/
theorem C153_count_violated :
    (write { F.new 10 true false false with st := .open } [[1, 2], [3]] none).1 = some 4 ∧
    (write { F.new 10 true false false with st := .open } [List.replicate 250 0, [1]] none).1 = some 500 := by decide +kernel

/-- Nothing to write, to an output file, is an error: the far end is said to have closed. -/
theorem C153_empty_violated (k : Option Nat) : (write { F.new 10 true false true with st := .open, outf := true } [[]] k).1 = none := by
  cases k <;> simp [write, F.new]

/-! ### C154: what is read is what is in the file -/

/-- In every run in which operations do not overlap and the input file was opened once: what the user
has taken, what is held for him and what is left of the file are together the file.  What he is offered
is what is held. -/
theorem C154_read_partial (maxRead : Nat) (readClose infile outfile : Bool) (ops : List Op) {s : F}
    (e : run (F.new maxRead readClose infile outfile) ops = some s) (hs : serial (F.new maxRead readClose infile outfile) ops) (h1 : s.infOpens ≤ 1) :
    (∀ r, s.inf = some r → s.cur = s.got ++ s.buf ++ r) ∧ (∀ d, Pc.readCb d ∈ s.ths → d = s.buf) := by
  have hser := ser_run ops (ser_new _ _ _ _) hs e
  obtain ⟨s', e', hinv⟩ := inv_run ops (inv_new maxRead readClose infile outfile)
  rw [e] at e'
  cases e'
  refine ⟨fun r hr => ?_, hser.off⟩
  rw [← hser.data, hinv.one h1]
  exact hinv.cur r hr

/-- If then the end of the file is reported, the user has taken all of it. -/
theorem C154_end_partial (maxRead : Nat) (readClose infile outfile : Bool) (ops : List Op) {s : F} (hm : 0 < maxRead)
    (e : run (F.new maxRead readClose infile outfile) ops = some s) (hs : serial (F.new maxRead readClose infile outfile) ops) (h1 : s.infOpens ≤ 1)
    {d : List UInt8} (he : Ev.read d (some .remclose) ∈ s.evs) : s.got = s.cur := by
  have hser := ser_run ops (ser_new _ _ _ _) hs e
  obtain ⟨s', e', hinv⟩ := inv_run ops (inv_new maxRead readClose infile outfile)
  rw [e] at e'
  cases e'
  obtain ⟨_, b, _, c⟩ := hser.eof (Or.inr ⟨d, he⟩)
  have hmax : ∀ (ops : List Op) (t t' : F), run t ops = some t' → t'.maxRead = t.maxRead := by
    have hd : ∀ t t' : F, deref t = some t' → t'.maxRead = t.maxRead := by
      intro t t' h; unfold deref at h; split at h
      · cases h
      · split at h <;> cases h <;> rfl
    have ht : ∀ t t' : F, goTail t = some t' → t'.maxRead = t.maxRead := by
      intro t t' h; unfold goTail at h; split at h
      · dsimp only at h; split at h
        · cases h; rfl
        · exact (hd _ _ h).trans rfl
      · exact hd _ _ h
    have hw : ∀ t t' : F, goWrite t = some t' → t'.maxRead = t.maxRead := by
      intro t t' h; unfold goWrite at h; split at h
      · cases h; rfl
      · exact ht _ _ h
    have hfb : ∀ (t : F) r, (fillBuf t r).maxRead = t.maxRead := by
      intro t r; unfold fillBuf; split
      · split
        · rfl
        · dsimp only; split <;> rfl
      · rfl
    have hr : ∀ (t t' : F) r, goRead t r = some t' → t'.maxRead = t.maxRead := by
      intro t t' r h; unfold goRead at h; split at h
      · dsimp only at h; split at h
        · exact (hw _ _ h).trans (hfb t r)
        · cases h; exact hfb t r
      · exact hw _ _ h
    have hs : ∀ (t t' : F) r, startRun t r = some t' → t'.maxRead = t.maxRead := by
      intro t t' r h; unfold startRun at h; split at h
      · dsimp only at h; split at h
        · cases h; rfl
        · exact (hr _ _ _ h).trans rfl
      · exact hr _ _ _ h
    have hre : ∀ (t t' : F) p er c r, resume t p er c r = some t' → t'.maxRead = t.maxRead := by
      intro t t' p er c r h; unfold resume at h; split at h
      · exact hr _ _ _ h
      · split at h
        · exact (hw _ _ h).trans rfl
        · refine (hr _ _ _ h).trans ?_
          unfold consume; split
          · split <;> rfl
          · rfl
      · split at h
        · exact (ht _ _ h).trans rfl
        · exact hw _ _ h
      · exact hd _ _ h
    have hso : ∀ (t t' : F), startOp t = some t' → t'.maxRead = t.maxRead := by
      intro t t' h; unfold startOp at h; split at h
      · cases h; rfl
      · split at h
        · cases h
        · cases h; rfl
    have hu : ∀ (t t' : F) o, user t o = some t' → t'.maxRead = t.maxRead := by
      intro t t' o h
      cases o with
      | run r => cases h; rfl
      | ret a b c d => cases h; rfl
      | write sg k =>
        have h : some (write t sg k).2 = some t' := h
        cases h; unfold write; split
        · rfl
        · split
          · rfl
          · split
            · rfl
            · dsimp only; split <;> rfl
      | setRead b =>
        have h : setRead t b = some t' := h
        unfold setRead at h; split at h
        · cases h; rfl
        · split at h
          · exact (hso _ _ h).trans rfl
          · cases h; rfl
      | setWrite b =>
        have h : setWrite t b = some t' := h
        unfold setWrite at h; split at h
        · cases h; rfl
        · split at h
          · exact (hso _ _ h).trans rfl
          · cases h; rfl
      | «open» id d ok =>
        have h : fopen t id d ok = some t' := h
        unfold fopen at h; split at h
        · cases h; rfl
        · split at h
          · cases h; rfl
          · have key : (if t.infile then { t with inf := d, cur := d.getD [], curRead := [], infOpens := t.infOpens + 1, lost := t.lost + if t.inf.isSome then 1 else 0 } else t).maxRead = t.maxRead := by split <;> rfl
            generalize (if t.infile then { t with inf := d, cur := d.getD [], curRead := [], infOpens := t.infOpens + 1, lost := t.lost + if t.inf.isSome then 1 else 0 } else t) = u at key h
            dsimp only at h
            split at h
            · cases h; exact key
            · refine (hso _ _ h).trans ?_
              dsimp only
              split <;> exact key
      | close id =>
        have h : fclose t id = some t' := h
        unfold fclose at h; split at h
        · cases h; rfl
        · exact (hso _ _ h).trans rfl
      | free =>
        have h : ffree t = some t' := h
        unfold ffree at h; split at h
        · cases h
        · exact (hd _ _ h).trans rfl
    have hstep : ∀ (t t' : F) o, step t o = some t' → t'.maxRead = t.maxRead := by
      intro t t' o h
      have huser : ∀ o, step t o = (if t.freed then some t else if t.gone then none else user t o) → step t o = some t' → t'.maxRead = t.maxRead := by
        intro o he h
        rw [he] at h
        split at h
        · cases h; rfl
        · split at h
          · cases h
          · exact hu _ _ _ h
      cases o with
      | run r =>
        rw [step] at h
        split at h
        · split at h
          · cases h
          · exact (hs _ _ _ h).trans rfl
        · cases h; rfl
      | ret i er c r =>
        rw [step] at h
        split at h
        · split at h
          · cases h
          · exact (hre _ _ _ _ _ _ h).trans rfl
        · cases h; rfl
      | _ => exact huser _ rfl h
    intro ops
    induction ops with
    | nil => intro t t' h; cases h; rfl
    | cons o os ih =>
      intro t t' h
      rw [run] at h
      cases e1 : step t o with
      | none => rw [e1] at h; cases h
      | some t1 => rw [e1] at h; exact (ih t1 t' h).trans (hstep _ _ _ e1)
  have hc := c (by rw [hmax ops _ _ e]; exact hm) h1
  rw [← hc, ← hinv.one h1, hser.data, b, List.append_nil]

/-- A file of five bytes, read in two parts, the first not taken at once. -/
example : (match run (F.new 3 true true false) [.open (some 1) (some [1, 2, 3, 4, 5]) true, .setRead true, .run (.ok 9), .ret 0 false 0 (.ok 9),
      .ret 0 false 2 (.ok 9), .ret 0 false 1 (.ok 9), .ret 0 false 2 (.ok 9)] with
    | some s => s.evs = [.opened 1 none, .read [1, 2, 3] none, .read [3] none, .read [4, 5] none, .read [] (some .remclose)] ∧ s.got = [1, 2, 3, 4, 5] ∧ s.infOpens = 1
    | none => false) = true := by decide +kernel

/-- If reads are switched off and on in the read callback, another thread may run the operation again and
be offered the same bytes; when both have taken them, the bytes that the first was offered next are gone
though it took none of them. -/
theorem C154_twice_violated :
    (match run (F.new 3 true true false) [.open none (some [1, 2, 3, 4, 5, 6]) true, .setRead true, .run (.ok 9), .setRead false, .setRead true, .run (.ok 9),
      .ret 0 false 3 (.ok 9), .ret 0 false 3 (.ok 9), .ret 0 false 0 (.ok 9)] with
    | some s => s.evs = [.read [1, 2, 3] none, .read [1, 2, 3] none, .read [4, 5, 6] none, .read [] (some .remclose)] ∧
        s.got = [1, 2, 3, 1, 2, 3] | none => false) = true := by decide +kernel

/-- The error of the last read is kept: a gensio that has read its file to the end, is closed and
opened again reads nothing, and says so to nobody if `read_close` is off. -/
theorem C154_reopen_violated :
    (match run (F.new 9 false true false) [.setRead true, .open (some 1) (some [1]) true, .run (.ok 9), .ret 0 false 0 (.ok 9), .ret 0 false 1 (.ok 9),
      .close (some 2), .run (.ok 9), .ret 0 false 0 (.ok 9), .open (some 3) (some [7, 8]) true, .run (.ok 9), .setRead true, .ret 0 false 0 (.ok 9), .run (.ok 9)] with
    | some s => s.evs = [.opened 1 none, .read [1] none, .closed 2, .opened 3 none] ∧ s.st = .open ∧ s.inf = some [7, 8] ∧ s.rd = false ∧ s.ths = [] ∧ s.queued = false
    | none => false) = true := by decide +kernel

/-- What was read but not taken before a close is offered after the next open, as if of the new file. -/
theorem C154_stale_violated :
    (match run (F.new 9 true true false) [.setRead true, .open none (some [1, 2]) true, .run (.ok 9), .close none, .ret 0 false 0 (.ok 9), .run (.ok 9),
      .open none (some [7]) true, .run (.ok 9)] with
    | some s => s.evs = [.read [1, 2] none, .read [1, 2] none] ∧ s.infOpens = 2 ∧ s.inf = some [7] | none => false) = true := by decide +kernel

/-- An error that the user's write callback gave is reported to him as an error of the input file. -/
theorem C154_error_violated :
    (match run (F.new 9 true true false) [.open none (some [1, 2]) true, .run (.ok 9), .setWrite true, .run (.ok 9), .setWrite false, .ret 0 true 0 (.ok 9),
      .setRead true, .run (.ok 9)] with
    | some s => s.evs = [.writeReady, .read [] (some .user)] ∧ s.inf = some [1, 2] | none => false) = true := by decide +kernel

/-! ### C155: descriptors -/

/-- If output files can be opened and the gensio is not freed while open, no descriptor is lost, and a
gensio that is not open, nor being opened, has none. -/
theorem C155_descriptors_partial (maxRead : Nat) (readClose infile outfile : Bool) (ops : List Op) {s : F}
    (e : run (F.new maxRead readClose infile outfile) ops = some s) (ht : tidy (F.new maxRead readClose infile outfile) ops) :
    s.lost = 0 ∧ (s.st ≠ .open → s.st ≠ .inOpen → s.inf = none ∧ s.outf = false) := by
  have h := fd_run ops (inv_new _ _ _ _) ⟨rfl, fun _ _ => ⟨rfl, rfl⟩, by simp [F.new]⟩ ht e
  exact ⟨h.lost, h.shut⟩

/-- Opened twice, with both files. -/
example : (match run (F.new 9 true true true) [.open (some 1) (some [1]) true, .run (.ok 1), .ret 0 false 0 (.ok 1), .close (some 2), .run (.ok 1), .ret 0 false 0 (.ok 1),
      .open (some 3) (some [1]) true, .close none, .run (.ok 1), .ret 0 false 0 (.ok 1), .free] with
    | some s => s.lost = 0 ∧ s.gone = true ∧ s.infOpens = 2 | none => false) = true := by decide +kernel

/-- If the output file cannot be opened the input file stays open; each further try leaves one more open
for ever, and so does the free. -/
theorem C155_open_violated :
    (match run (F.new 9 true true true) [.open (some 1) (some [1]) false, .open (some 1) (some [1]) false, .open (some 1) (some [1]) false] with
    | some s => s.st = .closed ∧ s.inf = some [1] ∧ s.lost = 2 | none => false) = true ∧
    (match run (F.new 9 true true true) [.open (some 1) (some [1]) false, .free] with
    | some s => s.gone = true ∧ s.lost = 1 | none => false) = true := by decide +kernel

/-- Freeing an open gensio closes neither file. -/
theorem C155_free_violated :
    (match run (F.new 9 true true true) [.open (some 1) (some [1]) true, .run (.ok 1), .ret 0 false 0 (.ok 1), .free] with
    | some s => s.gone = true ∧ s.lost = 2 | none => false) = true := by decide +kernel

/-! ### C156: memory, and callbacks after free -/

/-- In every run, with any number of operations at once: no assertion fails, no freed memory is used,
and the memory is freed exactly when the user has freed the gensio and no operation is scheduled or
running. -/
theorem C156_memory (maxRead : Nat) (readClose infile outfile : Bool) (ops : List Op) :
    ∃ s, run (F.new maxRead readClose infile outfile) ops = some s ∧ (s.gone = true ↔ s.freed = true ∧ s.queued = false ∧ s.ths = []) := by
  obtain ⟨s, e, h⟩ := inv_run ops (inv_new maxRead readClose infile outfile)
  refine ⟨s, e, ?_⟩
  rw [h.gone, h.refs]
  cases s.freed <;> cases s.queued <;> cases s.ths <;> simp

/-- A gensio freed when no operation is scheduled or running calls no callback after that. -/
theorem C156_silent_partial (maxRead : Nat) (readClose infile outfile : Bool) (ops : List Op) {s s' : F}
    (e : run (F.new maxRead readClose infile outfile) ops = some s) (hi : s.queued = false ∧ s.ths = []) (e1 : step s .free = some s') (os : List Op) :
    ∃ t, run s' os = some t ∧ t.evs = s.evs := by
  obtain ⟨s2, e2, h⟩ := inv_run ops (inv_new maxRead readClose infile outfile)
  rw [e] at e2
  cases e2
  obtain ⟨s3, e3, h'⟩ := inv_step h .free
  rw [e1] at e3
  cases e3
  have key : s'.freed = true ∧ s'.queued = false ∧ s'.ths = [] ∧ s'.evs = s.evs := by
    have e1 : (if s.freed then some s else if s.gone then none else ffree s) = some s' := e1
    split at e1
    · rename_i hf; cases e1; exact ⟨hf, hi.1, hi.2, rfl⟩
    · split at e1
      · cases e1
      · unfold ffree deref at e1
        split at e1
        · cases e1
        · dsimp only at e1
          split at e1
          · cases e1; exact ⟨rfl, hi.1, hi.2, rfl⟩
          · cases e1; exact ⟨rfl, hi.1, hi.2, rfl⟩
  obtain ⟨k1, k2, k3, k4⟩ := key
  have hall : ∀ o, step s' o = some s' := by
    intro o
    cases o with
    | run r => rw [step, k2]; rfl
    | ret i a b c => rw [step, k3]; rfl
    | _ => show (if s'.freed then some s' else _) = _; rw [if_pos k1]
  refine ⟨s', ?_, k4⟩
  induction os with
  | nil => rfl
  | cons o os ih => rw [run, hall o]; exact ih

/-- Freed in the open callback: the operation ends and the memory is freed. -/
example : (match run (F.new 9 true true false) [.open (some 1) (some [1]) true, .run (.ok 1), .free, .ret 0 false 0 (.ok 1)] with
    | some s => s.evs = [.opened 1 none] ∧ s.gone = true | none => false) = true := by decide +kernel

/-- A gensio freed while an operation is scheduled or running is not marked closed: it opens, reads the
file and calls the user again and again after the free. -/
theorem C156_after_free_violated :
    (match run (F.new 9 true true false) [.setRead true, .open (some 1) (some [1]) true, .free] with
    | some s => s.freed = true ∧ s.evs = [] | none => false) = true ∧
    (match run (F.new 9 true true false) [.setRead true, .open (some 1) (some [1]) true, .free, .run (.ok 1), .ret 0 false 0 (.ok 1), .ret 0 false 1 (.ok 1), .ret 0 false 0 (.ok 1)] with
    | some s => s.evs = [.opened 1 none, .read [1] none, .read [] (some .remclose)] | none => false) = true := by decide +kernel

/-! ### C157: moving what is left in the buffer -/

/-- If every read callback takes everything, at least half, or nothing of what is held, `memcpy` never
copies between parts that overlap. -/
theorem C157_move_partial (s : F) (count : Nat) (h : count = 0 ∨ s.buf.length ≤ 2 * count) :
    (consume s count).overlap = s.overlap ∧ (consume s count).buf = s.buf.drop count := by
  unfold consume
  by_cases h0 : count > 0
  · rw [if_pos h0]
    by_cases h1 : count ≥ s.buf.length
    · rw [if_pos h1]; exact ⟨rfl, by simp [h1]⟩
    · rw [if_neg h1]
      refine ⟨?_, rfl⟩
      have : ¬(count < s.buf.length - count) := by omega
      simp [this]
  · rw [if_neg h0]
    have : count = 0 := by omega
    subst this; simp

/-- Three of five bytes are taken. -/
example : (consume { F.new 9 true true false with buf := [1, 2, 3, 4, 5] } 3).buf = [4, 5] ∧
    (consume { F.new 9 true true false with buf := [1, 2, 3, 4, 5] } 3).overlap = false := by decide +kernel

/-- If less is taken, the parts overlap, which `memcpy` does not allow. -/
theorem C157_overlap_violated :
    (match run (F.new 9 true true false) [.setRead true, .open none (some [1, 2, 3, 4, 5]) true, .run (.ok 9), .ret 0 false 1 (.ok 9)] with
    | some s => s.overlap = true | none => false) = true := by decide +kernel

/-! ### C158: opens and closes are reported once -/

/-- In every run, with any number of operations at once, freed or not: the opens reported are the opens
accepted, in order, but for one not reported yet, and the same for the closes; when no operation is
scheduled or running all are reported. -/
theorem C158_reported (maxRead : Nat) (readClose infile outfile : Bool) (ops : List Op) :
    ∃ s, run (F.new maxRead readClose infile outfile) ops = some s ∧
    (∃ o, s.opens = (s.evs.flatMap fun e => match e with | .opened i _ => [i] | _ => []) ++ o ∧ o.length ≤ 1 ∧ (s.queued = false → o = [])) ∧
    (∃ c, s.closes = (s.evs.flatMap fun e => match e with | .closed i => [i] | _ => []) ++ c ∧ c.length ≤ 1 ∧ (s.queued = false → s.ths = [] → c = [])) := by
  obtain ⟨s, e, h⟩ := inv_run ops (inv_new maxRead readClose infile outfile)
  have hl : ∀ o : Option Nat, o.toList.length ≤ 1 := by intro o; cases o <;> simp
  refine ⟨s, e, ⟨_, h.opens, ?_, ?_⟩, ⟨_, h.closes, ?_, ?_⟩⟩
  · split
    · exact hl _
    · simp
  · intro hq
    rw [if_neg]
    intro ho
    have := h.opening ho
    rw [hq] at this; cases this
  · split
    · exact hl _
    · simp
  · intro hq ht
    rw [if_neg]
    rintro (hc | hc)
    · rcases h.closing hc with h | h | h
      · rw [hq] at h; cases h
      · rw [ht] at h; cases h
      · cases h
    · have := h.opening (Or.inr hc)
      rw [hq] at this; cases this

/-- If operations do not overlap, a callback starts only when no other is running. -/
theorem C158_alone_partial (maxRead : Nat) (readClose infile outfile : Bool) (ops : List Op) {s : F}
    (e : run (F.new maxRead readClose infile outfile) ops = some s) (hs : serial (F.new maxRead readClose infile outfile) ops) : s.ths.length ≤ 1 :=
  (ser_run ops (ser_new _ _ _ _) hs e).one

/-- Closed before it is open. -/
example : (match run (F.new 9 true true false) [.open (some 1) (some [1]) true, .close (some 2), .run (.ok 1), .ret 0 false 0 (.ok 1)] with
    | some s => s.evs = [.opened 1 (some .localclosed), .closed 2] | none => false) = true := by decide +kernel

/-- The close may be reported, and the gensio be open again, while its read callback is still running in
another thread; what that callback then says it took is taken from the data of the new file. -/
theorem C158_close_violated :
    (match run (F.new 9 true true false) [.setRead true, .open none (some [1, 2]) true, .run (.ok 9), .close (some 2), .run (.ok 9)] with
    | some s => s.evs = [.read [1, 2] none, .closed 2] ∧ s.ths = [.readCb [1, 2], .closeCb] | none => false) = true ∧
    (match run (F.new 9 true true false) [.setRead true, .open none (some [1, 2]) true, .run (.ok 9), .close (some 2), .run (.ok 9), .ret 1 false 0 (.ok 9),
      .open (some 3) (some [7]) true, .run (.ok 9)] with
    | some s => s.ths = [.readCb [1, 2], .openCb] ∧ s.st = .open | none => false) = true := by decide +kernel

/-! ### C159: enabled callbacks are called -/

/-- In every run: if the gensio is open with an input file and no operation is scheduled or running, reads
are off (as they are at the end of the file, which was reported if it is to be, and after an error); and
if no callback gave an error, writes are off as well.  So no callback is owed to the user. -/
theorem C159_awake (maxRead : Nat) (readClose infile outfile : Bool) (ops : List Op) :
    ∃ s, run (F.new maxRead readClose infile outfile) ops = some s ∧
    (s.st = .open → s.queued = false → s.ths = [] → (s.inf.isSome = true → s.rd = false) ∧ (s.rdErr ≠ some .user → s.wr = false)) := by
  obtain ⟨s, e, h⟩ := inv_run ops (inv_new maxRead readClose infile outfile)
  refine ⟨s, e, fun ho hq ht => ⟨fun hi => ?_, fun hu => ?_⟩⟩
  · cases hr : s.rd with
    | false => rfl
    | true =>
      rcases h.awakeR ho hr hi with h | ⟨p, h, _⟩ | h
      · rw [hq] at h; cases h
      · rw [ht] at h; cases h
      · cases h
  · cases hr : s.wr with
    | false => rfl
    | true =>
      rcases h.awakeW ho hr with h | ⟨p, h, _⟩ | h | h | h
      · rw [hq] at h; cases h
      · rw [ht] at h; cases h
      · cases h
      · cases h
      · exact absurd h hu

/-- Reads enabled in the open callback. -/
example : (match run (F.new 9 true true false) [.open (some 1) (some [1]) true, .run (.ok 1), .setRead true, .ret 0 false 0 (.ok 1)] with
    | some s => s.evs = [.opened 1 none, .read [1] none] | none => false) = true := by decide +kernel

end Gensio.FileIo
