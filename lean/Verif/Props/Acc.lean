import Verif.Lemmas.AccTold

/-!
# Accepters

C119: references.  C120: the report of a shutdown.  C121: connections.  C122: an accepter that was started.  C123: the enables.
C124: the sockets of `gensio_net.c`.
-/
set_option linter.unusedSimpArgs false
namespace Gensio.Acc

/-! ## C119 -/

/-- C119, in all runs: the memory of an accepter was freed if and only if the user has freed it, its lower half is not shutting down
and no callback is running or awaited. -/
theorem C119_released {leaf : Bool} {P : A → Op → Prop} {s : A} (h : Reach leaf P s) :
    s.gone = true ↔ (s.freed = true ∧ s.low ≠ .closing ∧ s.opening = 0 ∧ s.inConn = 0 ∧ s.lowEn = 0 ∧ s.inEn = 0 ∧ s.inShut = 0) := by
  obtain ⟨c1, c2, c3, c4, c5, c6, c7⟩ := cnt_of_reach h
  rw [c3, c1]
  cases s.freed <;> cases s.low <;> simp [b2n, Low.n] <;> omega

/-- C119, for runs that are `calm`: no step is a fault. -/
theorem C119_no_fault_partial {leaf : Bool} {s : A} {op : Op} (h : Reach leaf (calm leaf) s) (hc : can leaf s op = true) :
    ∃ t, step leaf s op = some t := by
  suffices ht : Told leaf s from step_ok ht (cnt_of_reach h) hc
  clear hc
  induction h with
  | init => exact Told.init
  | step op h hc hp he ih => exact Told.step ih (cnt_of_reach h) hc hp he

theorem told_of_reach {leaf : Bool} {s : A} (h : Reach leaf (calm leaf) s) : Told leaf s := by
  induction h with
  | init => exact Told.init
  | step op h hc hp he ih => exact Told.step ih (cnt_of_reach h) hc hp he

/-- An accepter is started, gets two connections and is asked to stop and to go on accepting; it is shut down while a connection is
being given to the user, and freed. -/
def session : List Op :=
  [.startup 0, .startup 0, .newChild 0, .newChild 0, .openDone 0, .openDone 7, .connCont, .enable (some 5) 0, .enable (some 6) 0, .lowEn, .enCont,
   .newChild 0, .openDone 0, .shutdown 1 0, .shutdown 2 0, .newChild 0, .lowShut, .connCont, .shutCont, .free 0]

/-- What the user was told in it. -/
def story : List Ev :=
  [.start true, .start false, .newConn, .enable (some 5) true, .enable (some 6) false, .enableCb 5, .newConn, .shutdown 1 true, .shutdown 2 false,
   .shutdownCb 1, .free]

example : (match exec true init session with | .ok s => s.gone && s.log = story | _ => false) = true ∧
    (match exec false init session with | .ok s => s.gone && s.log = story | _ => false) = true := by decide +kernel

/-- An accepter was shut down while a callback was running, and was started again.  After the next callback it is closed, and when it is
freed its sockets are left open, with handlers that use the freed memory. -/
theorem C119_stale_flag_violated : exec true init [.startup 0, .newChild 0, .shutdown 1 0, .lowShut, .openDone 0, .shutCont, .startup 0,
    .newChild 0, .openDone 0, .connCont, .shutCont, .free 0] = .fault := by decide +kernel

/-! ## C120 -/

/-- C120, for runs that are `calm`: the user is told of each shutdown that was accepted once, and of no other; and not after it has
freed the accepter. -/
theorem C120_told_once_partial {leaf : Bool} {s : A} (h : Reach leaf (calm leaf) s) : (s.log.foldlM track .closed).isSome = true := by
  rw [(told_of_reach h).tr]; rfl

/-- C120, for runs that are `calm`: when the user is told, the lower half is closed, no callback is running and none is awaited. -/
theorem C120_told_last_partial {leaf : Bool} {s s' : A} {op : Op} {id : Nat} (h : Reach leaf (calm leaf) s) (hc : can leaf s op = true)
    (hp : calm leaf s op) (he : step leaf s op = some s') (hl : s'.log = s.log ++ [.shutdownCb id]) :
    s'.low = .closed ∧ s'.opening = 0 ∧ s'.inConn = 0 ∧ s'.lowEn = 0 ∧ s'.inEn = 0 := by
  have hr : Reach leaf (calm leaf) s' := .step op h hc hp he
  have c' := cnt_of_reach hr
  suffices hs : s'.low = .closed ∧ s'.inCb = 0 by
    have := c'.cb
    refine ⟨hs.1, ?_⟩
    omega
  obtain ⟨k, _⟩ := step_core he
  have ti := told_of_reach h
  have ci := cnt_of_reach h
  have ne (e : Ev) (x : s.log ++ [e] = s.log ++ [.shutdownCb id]) : e = .shutdownCb id := by simpa using x
  have nn (x : s.log = s.log ++ [.shutdownCb id]) : False := by simpa using x
  have lv : ∀ t : A, t.log = s.log → t.low = s.low → t.callShut = s.callShut → t.shutDone = s.shutDone → (leaveCore t).log = s.log ++ [.shutdownCb id] →
      (leaveCore t).low = .closed ∧ (leaveCore t).inCb = 0 := by
    intro t t1 t2 t3 t4 t5
    unfold leaveCore at t5 ⊢
    split at t5
    · rename_i hh
      rw [if_pos hh]
      unfold finishShut at t5 ⊢
      cases hd : t.shutDone with
      | none => rw [hd] at t5; dsimp only at t5; rw [t1] at t5; exact (nn t5).elim
      | some i =>
        dsimp only [A.say]
        refine ⟨?_, rfl⟩
        have hx := ti.sd.mp (by rw [← t4, hd]; rfl)
        rcases ci.ls hx.1 with a | a
        · have := ti.nl a
          rw [← t3, hh.2] at this; cases this
        · rw [t2]; exact a.1
    · dsimp only at t5; rw [t1] at t5; exact (nn t5).elim
  rw [k.log] at hl
  rw [k.low, k.inCb]
  cases op with
  | startup lerr =>
    dsimp only [core] at hl
    split at hl
    · cases ne _ hl
    · split at hl <;> cases ne _ hl
  | shutdown i lerr =>
    dsimp only [core] at hl
    split at hl
    · split at hl <;> cases ne _ hl
    · cases ne _ hl
  | lowShut =>
    dsimp only [core] at hl ⊢
    split at hl
    · exact (nn hl).elim
    · rename_i hh
      rw [if_neg hh]
      unfold finishShut
      split
      · exact ⟨rfl, Decidable.not_not.mp hh⟩
      · exact ⟨rfl, Decidable.not_not.mp hh⟩
  | shutCont => exact (nn hl).elim
  | enable done lerr =>
    dsimp only [core] at hl
    split at hl
    · cases ne _ hl
    · split at hl
      · cases ne _ hl
      · split at hl <;> cases ne _ hl
  | lowEn => cases ne _ hl
  | enCont => exact lv _ rfl rfl rfl rfl hl
  | newChild err =>
    dsimp only [core] at hl
    split at hl <;> exact (nn hl).elim
  | openDone err =>
    dsimp only [core] at hl ⊢
    split at hl
    · cases ne _ hl
    · rename_i hh
      rw [if_neg hh]
      exact lv _ rfl rfl rfl rfl hl
  | connCont => exact lv _ rfl rfl rfl rfl hl
  | free lerr =>
    simp only [core] at hl
    split at hl
    · cases ne _ hl
    · cases ne _ hl
    · split at hl <;> cases ne _ hl

/-- C120, for runs that are `calm`: once the lower half is closed and no callback is running or awaited, the user was told: no
shutdown is left over. -/
theorem C120_told_partial {leaf : Bool} {s : A} (h : Reach leaf (calm leaf) s) (hl : s.low = .closed)
    (h0 : s.opening = 0 ∧ s.inConn = 0 ∧ s.lowEn = 0 ∧ s.inEn = 0) :
    s.log.foldlM track .closed = some .closed ∨ s.log.foldlM track .closed = some .freed := by
  have ti := told_of_reach h
  have ci := cnt_of_reach h
  rw [ti.tr]
  unfold phOf
  cases hf : s.freed
  · cases hst : s.st
    · left; simp
    · have := (ci.lo hst).1; rw [hl] at this; cases this
    · rcases ci.ls hst with a | a
      · rw [hl] at a; cases a
      · have := ci.cb; omega
  · right; simp

example : story.foldlM track .closed = some .freed ∧
    [Ev.start true, .shutdown 1 true, .shutdownCb 1, .shutdownCb 1].foldlM track .closed = none := by decide +kernel

/-- After a shutdown that waited for a callback and a restart, the user is told of the next shutdown while the lower half is still
shutting down. -/
theorem C120_early_violated : (match exec true init [.startup 0, .newChild 0, .shutdown 1 0, .lowShut, .openDone 0, .shutCont, .startup 0,
    .newChild 0, .openDone 0, .shutdown 2 0, .connCont] with
    | .ok s => s.low = .closing && s.log.getLast? = some (.shutdownCb 2) | _ => false) = true := by decide +kernel

/-- The user is told of a shutdown that was refused, after it has freed the accepter. -/
theorem C120_refused_violated : (match exec false init [.startup 0, .shutdown 1 3, .free 0, .lowShut] with
    | .ok s => s.log = [.start true, .shutdown 1 false, .free, .shutdownCb 1] | _ => false) = true := by decide +kernel

/-! ## C121 -/

/-- C121, in all runs: a connection is given to the user only after a start, and not after a shutdown that was accepted or after the
accepter was freed. -/
theorem C121_connections {leaf : Bool} {P : A → Op → Prop} {s : A} (h : Reach leaf P s) (a b : List Ev) (hl : s.log = a ++ .newConn :: b) :
    isOpen a = true := by
  have : Conn s := by
    clear hl
    induction h with
    | init => exact ⟨fun a b x => by simp [init] at x, fun x => by cases x⟩
    | step op h hc hp he ih => exact ih.step he
  exact this.1 a b hl

example : isOpen [.start true, .shutdown 1 false] = true ∧ isOpen [.start true, .shutdown 1 true] = false ∧ isOpen [.start true, .free] = false ∧
    isOpen [.start false] = false := by decide +kernel

/-! ## C122 -/

/-- C122, for runs that are `calm`: an accepter that was started, and not shut down or freed since, is open, and so is its lower half. -/
theorem C122_stays_open_partial {leaf : Bool} {s : A} (h : Reach leaf (calm leaf) s) (ho : s.log.foldlM track .closed = some .opened) :
    s.st = .opened ∧ s.low = .opened := by
  have ti := told_of_reach h
  rw [ti.tr] at ho
  have hs : s.st = .opened := by
    revert ho
    unfold phOf
    cases s.freed <;> cases s.st <;> cases s.shutDone <;> simp
  exact ⟨hs, ((cnt_of_reach h).lo hs).1⟩

example : (match exec true init (session.take 7) with
    | .ok s => s.log.foldlM track .closed = some .opened && s.st = .opened | _ => false) = true := by decide +kernel

/-- After a shutdown that waited for a callback and a restart, the accepter is closed by the next callback; its lower half stays open, a
shutdown is refused and so is a start. -/
theorem C122_closed_violated : (match exec true init [.startup 0, .newChild 0, .shutdown 1 0, .lowShut, .openDone 0, .shutCont, .startup 0,
    .newChild 0, .openDone 0, .connCont, .shutCont, .shutdown 2 0, .startup 0] with
    | .ok s => s.st = .closed && s.low = .opened && isOpen (s.log.take 4) && s.log.drop 3 = [.start true, .newConn, .shutdown 2 false, .start false]
    | _ => false) = true := by decide +kernel

/-! ## C123 -/

theorem entold_of_reach {leaf : Bool} {P : A → Op → Prop} {s : A} (h : Reach leaf P s) : EnTold s := by
  induction h with
  | init => rfl
  | step op h hc hp he ih => exact EnTold.step ih (cnt_of_reach h) hc he

/-- C123, in all runs: each call that enables or disables connections and that was accepted with a callback has its callback called
once, and no other callback is called; another call with a callback is accepted only after that. -/
theorem C123_told_once {leaf : Bool} {P : A → Op → Prop} {s : A} (h : Reach leaf P s) : (s.log.foldlM trackEn none).isSome = true := by
  rw [entold_of_reach h]; rfl

/-- Nothing is left over of a call that is not awaited. -/
theorem leafEn_of_reach {P : A → Op → Prop} {s : A} (h : Reach true P s) : s.lowEn = 0 → s.enDone = none := by
  induction h with
  | init => intro _; rfl
  | @step s s' op h hc hp he ih =>
    obtain ⟨k, _⟩ := step_core he
    have ci := cnt_of_reach h
    rw [k.lowEn, k.enDone]
    have lv : ∀ t : A, t.lowEn = s.lowEn → t.enDone = s.enDone → ((leaveCore t).lowEn = 0 → (leaveCore t).enDone = none) := by
      intro t a b
      unfold leaveCore finishShut
      repeat' split
      all_goals (dsimp only [A.say]; rw [a, b]; exact ih)
    cases op with
    | startup lerr => dsimp only [core]; repeat' split
                      all_goals exact ih
    | shutdown i lerr => dsimp only [core]; repeat' split
                         all_goals exact ih
    | lowShut => dsimp only [core, finishShut]; repeat' split
                 all_goals exact ih
    | shutCont => exact ih
    | enable done lerr =>
      have hl : lerr = 0 := by simp [can] at hc; exact hc.2
      dsimp only [core]
      split
      · exact ih
      · rename_i hn
        split
        · rename_i hr
          intro (h0 : s.lowEn = 0)
          rcases hr with a | a
          · exact absurd hl a
          · exact absurd h0 a.2
        · split
          · intro h0; exact absurd h0 (by simp [A.say])
          · exact ih
    | lowEn => intro _; rfl
    | enCont => exact lv _ rfl rfl
    | newChild err => dsimp only [core]; split <;> exact ih
    | openDone err =>
      dsimp only [core]
      split
      · exact ih
      · exact lv _ rfl rfl
    | connCont => exact lv _ rfl rfl
    | free lerr => simp only [core]; repeat' split
                   all_goals exact ih

/-- C123, for an accepter with sockets: when no callback is awaited, a call with a callback is accepted by an open accepter.  (For a
child accepter this is not so, see below.) -/
theorem C123_accepted_partial {P : A → Op → Prop} {s : A} (h : Reach true P s) (hs : s.st = .opened)
    (hw : s.log.foldlM trackEn none = some none) (id : Nat) :
    ∃ t, step true s (.enable (some id) 0) = some t ∧ t.log = s.log ++ [.enable (some id) true] := by
  have ci := cnt_of_reach h
  have hl : s.lowEn = 0 := by
    have he := entold_of_reach h
    unfold EnTold at he
    rw [he] at hw
    unfold wait at hw
    by_cases h0 : s.lowEn = 0
    · exact h0
    · have := ci.en2 h0
      rw [if_neg h0, Option.some.injEq] at hw
      rw [hw] at this; cases this
  have hd := leafEn_of_reach h hl
  have hf := (ci.lo hs).2
  have h0 : s.ref ≠ 0 := by
    have := ci.ref
    rw [hf] at this
    simp [b2n] at this
    omega
  have hg : s.gone = false := by
    cases hx : s.gone
    · rfl
    · exact absurd (ci.gone.mp hx) h0
  refine ⟨{ (s.say (.enable (some id) true)) with enDone := some id, ref := s.ref + 1, inCb := s.inCb + 1, lowEn := s.lowEn + 1 }, ?_, rfl⟩
  simp [step, hg, enable, hs, hd, hl, enterCb, ref, h0, A.say]

example : (match exec true init (session.take 11) with
    | .ok s => s.st = .opened && s.log.foldlM trackEn none = some none | _ => false) = true := by decide +kernel

/-- A child accepter: a call without a callback, while one with a callback is awaited, leads to a call through a NULL pointer. -/
theorem C123_null_violated : exec false init [.startup 0, .enable (some 1) 0, .enable none 0, .lowEn] = .fault := by decide +kernel

/-- A child accepter that refuses one call with a callback: all later ones are refused, though no callback is awaited. -/
theorem C123_stuck_violated (id : Nat) : (match exec false init [.startup 0, .enable (some 1) 3, .enable (some id) 0] with
    | .ok s => decide (s.st = .opened ∧ s.lowEn = 0 ∧ s.log = [.start true, .enable (some 1) false, .enable (some id) false]) | _ => false) = true := by
  simp [exec, can, step, init, enable, A.say]

/-! ## C124 -/

/-- What holds of the sockets.  While nothing is awaited all sockets are open or there are none; during a shutdown the ones that are
open are the ones whose report is awaited. -/
structure NInv (s : N) : Prop where
  nodup : s.clearing.Nodup
  wait : s.waiting = s.clearing.length
  len : ∀ l, s.fds = some l → l.length = s.nr ∧ 0 < s.nr
  nul : s.fds = none → s.clearing = []
  idle : ∀ l, s.fds = some l → s.clearing = [] → ∀ i, i < s.nr → l[i]? = some true
  mem : ∀ l, s.fds = some l → ∀ i, i ∈ s.clearing → l[i]? = some true

theorem NInv.cleared {s : N} {i : Nat} (h : NInv s) (hi : i ∈ s.clearing) :
    ∃ s', netCleared s i = some s' ∧ NInv s' ∧ s'.clearing = s.clearing.erase i ∧ s'.nr = s.nr ∧
      (s'.clearing ≠ [] → s'.told = s.told ∧ s'.fds.isSome) ∧ (s'.clearing = [] → s'.told = s.told + 1 ∧ s'.fds = none) := by
  obtain ⟨h1, h2, h3, h4, h5, h6⟩ := h
  cases hf : s.fds with
  | none => rw [h4 hf] at hi; cases hi
  | some l =>
    have hp : 0 < s.clearing.length := List.length_pos_of_mem hi
    have hle : (s.clearing.erase i).length = s.clearing.length - 1 := List.length_erase_of_mem hi
    have hn : ¬(s.waiting = 0 ∨ l[i]? ≠ some true) := by
      rintro (a | a)
      · omega
      · exact a (h6 l hf i hi)
    have hnd : (s.clearing.erase i).Nodup := h1.erase i
    unfold netCleared
    rw [hf]
    dsimp only
    rw [if_neg hn]
    by_cases hz : s.waiting - 1 = 0
    · have he : s.clearing.erase i = [] := List.eq_nil_of_length_eq_zero (by omega)
      rw [if_pos hz]
      refine ⟨_, rfl, ⟨hnd, by dsimp only; omega, (fun l x => by cases x), fun _ => he, (fun l x => by cases x), (fun l x => by cases x)⟩, rfl, rfl, ?_, ?_⟩
      · intro x; exact absurd he x
      · intro _; exact ⟨rfl, rfl⟩
    · have he : s.clearing.erase i ≠ [] := fun x => by rw [x] at hle; simp at hle; omega
      rw [if_neg hz]
      refine ⟨_, rfl, ⟨hnd, by dsimp only; omega, ?_, (fun x => by cases x), ?_, ?_⟩, rfl, rfl, fun _ => ⟨rfl, rfl⟩, fun x => absurd x he⟩
      · intro l' x
        cases x
        have := h3 l hf
        exact ⟨by simpa using this.1, this.2⟩
      · intro l' _ x; exact absurd x he
      · intro l' x j hj
        cases x
        have hj : j ∈ s.clearing.erase i := hj
        have hne : j ≠ i := fun x => by rw [x] at hj; exact h1.not_mem_erase hj
        rw [List.getElem?_set_ne (Ne.symm hne)]
        exact h6 l hf j (List.mem_of_mem_erase hj)

theorem NInv.shutdown {s s' : N} (h : NInv s) (hw : s.waiting = 0) (hf : s.fds.isSome) (he : netShutdown s = some s') :
    NInv s' ∧ s'.clearing = List.range s.nr ∧ s'.told = s.told ∧ s'.fds = s.fds ∧ s'.nr = s.nr := by
  obtain ⟨h1, h2, h3, h4, h5, h6⟩ := h
  have hc : s.clearing = [] := List.eq_nil_of_length_eq_zero (by omega)
  unfold netShutdown at he
  cases hx : s.fds with
  | none => rw [hx] at hf; cases hf
  | some l =>
    rw [hx] at he
    cases he
    have := h3 l hx
    refine ⟨⟨List.nodup_range, by simp, fun l' x => h3 l' (by rw [hx]; exact x), (fun x => by cases x), ?_, ?_⟩, rfl, rfl, rfl, rfl⟩
    · intro _ _ x
      have : (List.range s.nr).length = 0 := by rw [show List.range s.nr = [] from x]; rfl
      simp at this; omega
    · intro l' x i hi
      exact h5 l' (by rw [hx]; exact x) hc i (by simpa using hi)

theorem ninv_of_reach {s : N} (h : NReach s) : NInv s := by
  induction h with
  | init => exact ⟨List.nodup_nil, rfl, (fun _ x => by cases x), fun _ => rfl, (fun _ x => by cases x), (fun _ x => by cases x)⟩
  | @startup s n h hf hn ih =>
    have hc := ih.nul hf
    refine ⟨ih.nodup, ih.wait, ?_, (fun x => by cases x), ?_, ?_⟩
    · intro l x; cases x; exact ⟨by simp [netStartup], hn⟩
    · intro l x _ i hi; cases x
      have hi : i < n := hi
      simp [hi]
    · intro l x i hi
      have hi : i ∈ s.clearing := hi
      rw [hc] at hi; cases hi
  | shutdown h hw hf he ih => exact (ih.shutdown hw hf he).1
  | cleared i h hi he ih =>
    obtain ⟨t, ht, hinv, _⟩ := ih.cleared hi
    rw [he] at ht; cases ht; exact hinv

/-- Reports in any order. -/
theorem cleared_all {order : List Nat} : ∀ {s : N}, NInv s → order ≠ [] → order.Perm s.clearing →
    ∃ t, order.foldlM netCleared s = some t ∧ t.fds = none ∧ t.told = s.told + 1 ∧ t.waiting = 0 ∧
      ∀ k, k < order.length → ∃ u, (order.take k).foldlM netCleared s = some u ∧ u.told = s.told := by
  induction order with
  | nil => intro s _ h; exact absurd rfl h
  | cons i rest ih =>
    intro s hs _ hp
    obtain ⟨t, h1, h2, h3, h4, h5, h6⟩ := hs.cleared (hp.subset (List.mem_cons_self ..))
    have hp' : rest.Perm t.clearing := by
      rw [h3]
      have := hp.erase i
      simpa using this
    have hstep : ∀ l, (i :: l).foldlM netCleared s = l.foldlM netCleared t := by
      intro l; simp only [List.foldlM_cons, h1]; rfl
    rcases List.eq_nil_or_concat rest with rfl | ⟨_, _, hx⟩
    · have he : t.clearing = [] := hp'.symm.eq_nil
      have := h6 he
      refine ⟨t, by rw [hstep]; rfl, this.2, this.1, by rw [h2.wait, he]; rfl, ?_⟩
      intro k hk
      have : k = 0 := by simpa using hk
      subst this
      exact ⟨s, rfl, rfl⟩
    · have hne : rest ≠ [] := by rw [hx]; simp
      have hc : t.clearing ≠ [] := fun x => hne (by rw [x] at hp'; exact hp'.eq_nil)
      obtain ⟨u, u1, u2, u3, u4, u5⟩ := ih h2 hne hp'
      have ht := (h5 hc).1
      refine ⟨u, by rw [hstep]; exact u1, u2, by rw [u3, ht], u4, ?_⟩
      intro k hk
      cases k with
      | zero => exact ⟨s, rfl, rfl⟩
      | succ k =>
        obtain ⟨v, v1, v2⟩ := u5 k (by simpa using hk)
        exact ⟨v, by rw [List.take_succ_cons, hstep]; exact v1, by rw [v2, ht]⟩

/-- C124: after a shutdown the sockets report in any order.  No report is a fault; the upper half is told once, at the last report and
not before; then there are no sockets. -/
theorem C124_shutdown {s : N} (h : NReach s) (hw : s.waiting = 0) (hf : s.fds.isSome = true) {order : List Nat}
    (ho : order.Perm (List.range s.nr)) :
    ∃ s' t, netShutdown s = some s' ∧ order.foldlM netCleared s' = some t ∧ t.fds = none ∧ t.told = s.told + 1 ∧ t.waiting = 0 ∧
      ∀ k, k < order.length → ∃ u, (order.take k).foldlM netCleared s' = some u ∧ u.told = s.told := by
  have hi := ninv_of_reach h
  cases hx : s.fds with
  | none => rw [hx] at hf; cases hf
  | some l =>
    have he : netShutdown s = some { s with waiting := s.nr, clearing := List.range s.nr } := by
      unfold netShutdown; rw [hx]
    obtain ⟨h1, h2, h3, _⟩ := hi.shutdown hw hf he
    have hne : order ≠ [] := by
      intro x
      have := ho.length_eq
      rw [x] at this
      simp at this
      have := (hi.len l hx).2
      omega
    obtain ⟨t, t1, t2, t3, t4, t5⟩ := cleared_all h1 hne (by rw [h2]; exact ho)
    exact ⟨_, t, he, t1, t2, t3, t4, t5⟩

/-- C124, while the accepter is open (or was never started): the address and the port of each socket can be asked for. -/
theorem C124_control_partial {s : N} (h : NReach s) (hw : s.waiting = 0) (hn : s.nr = 0 ∨ s.fds.isSome = true) (laddr : Bool) (i : Nat) :
    netControl laddr s i = some (if i < s.nr then some i else none) := by
  have hi := ninv_of_reach h
  have hc : s.clearing = [] := List.eq_nil_of_length_eq_zero (by rw [← hi.wait, hw])
  unfold netControl
  by_cases h0 : s.nr = 0 ∨ s.nr ≤ i
  · rw [if_pos h0, if_neg (by omega)]
  · rw [if_neg h0, if_pos (by omega)]
    cases hx : s.fds with
    | none => rcases hn with a | a
              · exact absurd (.inl a) h0
              · rw [hx] at a; cases a
    | some l =>
      dsimp only
      rw [if_neg]
      rintro ⟨_, x⟩
      exact x (hi.idle l hx hc i (by omega))

/-- C124, while the accepter is open: a disable does not fault. -/
theorem C124_disable_partial {s : N} (hn : s.nr = 0 ∨ s.fds.isSome = true) : ∃ t, netDisable s = some t := by
  unfold netDisable
  cases hx : s.fds with
  | none => rcases hn with a | a
            · exact ⟨_, if_pos a⟩
            · rw [hx] at a; cases a
  | some l => exact ⟨_, rfl⟩

/-- Two sockets, open. -/
def two : N := netStartup ⟨none, 0, 0, [], 0⟩ 2

example : netControl true two 1 = some (some 1) ∧ netControl true two 2 = some none ∧
    (netShutdown two).bind (fun s => [1, 0].foldlM netCleared s) = some ⟨none, 2, 0, [], 1⟩ ∧
    (netShutdown two).bind (fun s => [1].foldlM netCleared s) = some ⟨some [true, false], 2, 1, [0], 0⟩ := by decide +kernel

example : NReach two := .startup 2 .init rfl (by omega)

/-- After a shutdown the number of sockets is kept and the array is not: to ask for an address or a port, or to disable the accepter, is a
use of a NULL pointer. -/
theorem C124_closed_violated : ∃ s, NReach s ∧ s.fds = none ∧ s.waiting = 0 ∧ netControl true s 0 = none ∧ netControl false s 0 = none ∧
    netDisable s = none := by
  refine ⟨⟨none, 2, 0, [], 1⟩, ?_, rfl, rfl, rfl, rfl, rfl⟩
  have a : NReach two := .startup 2 .init rfl (by omega)
  have b := NReach.shutdown (s' := ⟨some [true, true], 2, 2, [0, 1], 0⟩) a rfl rfl (by decide +kernel)
  have c := NReach.cleared (s' := ⟨some [false, true], 2, 1, [1], 0⟩) 0 b (by simp) (by decide +kernel)
  exact NReach.cleared (s' := ⟨none, 2, 0, [], 1⟩) 1 c (by simp) (by decide +kernel)

/-- During a shutdown, to ask for the address of a socket that is closed already is a use of a NULL pointer. -/
theorem C124_closing_violated : ∃ s, NReach s ∧ s.waiting ≠ 0 ∧ netControl true s 0 = none := by
  refine ⟨⟨some [false, true], 2, 1, [1], 0⟩, ?_, by simp, by decide +kernel⟩
  have a : NReach two := .startup 2 .init rfl (by omega)
  have b := NReach.shutdown (s' := ⟨some [true, true], 2, 2, [0, 1], 0⟩) a rfl rfl (by decide +kernel)
  exact NReach.cleared (s' := ⟨some [false, true], 2, 1, [1], 0⟩) 0 b (by simp) (by decide +kernel)

end Gensio.Acc
