import Verif.Lemmas.DefaultsRun
/-!
# Properties of the store of default values (C172–C178)
-/
namespace Gensio.Defaults

/-- A table of built-in defaults: constants of the program, nothing set, no data, and `reuseaddr` is there. -/
structure Table (T : List Ent) : Prop where
  static : ∀ e ∈ T, e.own = none ∧ (∀ p, e.dflt.str = some p → p.id = none) ∧ e.ty ≠ .data
  unset : ∀ e ∈ T, e.set = false ∧ e.classes = [] ∧ e.val.str = none
  reuse : ∃ e, T.find? (·.name = "reuseaddr") = some e ∧ e.ty = .bool

theorem builtins_table : Table builtins where
  static := by
    have h : ∀ e ∈ builtins, e.own = none ∧ (∀ p ∈ e.dflt.str, p.id = none) ∧ e.ty ≠ .data := by decide +kernel
    exact fun e he => ⟨(h e he).1, fun p hp => (h e he).2.1 p hp, (h e he).2.2⟩
  unset := by decide +kernel
  reuse := ⟨_, rfl, rfl⟩

/-- The map that a table stands for when the program starts: the values of the table, and `reuseaddr` false for UDP. -/
def first (T : List Ent) : M :=
  M.udp fun n => (T.find? (·.name = n)).map fun e =>
    ⟨false, e.ty, e.min, e.max, e.enums,
      match e.ty with
      | .str => .str (e.dflt.str.map fun p => cstr p.data)
      | .data => .data (e.dflt.str.map fun p => p.data.take e.dflt.int.toNat)
      | _ => .int e.dflt.int, none, fun _ => none⟩

theorem table_inv {T : List Ent} (h : Table T) : Inv { builtin := T } (fun _ => 0) := by
  have hz : ∀ i, entCnt i T = 0 := fun i => entCnt_zero (fun e he => by
    have hs := h.static e he
    have hu := h.unset e he
    have : strCnt i e.dflt.str = 0 := by
      cases hp : e.dflt.str with
      | none => rfl
      | some p =>
        obtain ⟨id, d⟩ := p
        have := hs.2.1 _ hp
        simp only at this
        subst this
        rfl
    rw [Ent.cnt, hs.1, this, hu.2.2, hu.2.1]
    rfl)
  refine ⟨⟨fun i => ?_, fun i => ?_, fun i _ => ?_⟩, ?_, by simp, by simp, by simp, h.reuse, .inl rfl, by simp, by simp, fun _ => h.unset, by simp, ?_⟩
  · simp [hz, entCnt]
  · simp [hz, entCnt]
  · simp [hz, entCnt]
  · intro e he
    have hu := h.unset e he
    exact ⟨by rw [hu.2.2]; trivial, by simp [hu.2.1], by simp [hu.2.1], by simp [hu.2.1], fun _ _ => hu.2.2⟩
  · intro e he
    refine ⟨(h.static e he).1, fun i => ?_, (h.static e he).2.2⟩
    cases hp : e.dflt.str with
    | none => rfl
    | some p =>
      obtain ⟨id, d⟩ := p
      have := (h.static e he).2.1 _ hp
      simp only at this
      subst this
      rfl

theorem table_abs {T : List Ent} (h : Table T) : abs { builtin := T } = first T := by
  have : absR { builtin := T } = fun n => (T.find? (·.name = n)).map fun e =>
      (⟨false, e.ty, e.min, e.max, e.enums,
        match e.ty with
        | .str => .str (e.dflt.str.map fun p => cstr p.data)
        | .data => .data (e.dflt.str.map fun p => p.data.take e.dflt.int.toNat)
        | _ => .int e.dflt.int, none, fun _ => none⟩ : Info) := by
    funext n
    simp only [absR, S.lookup]
    cases hf : T.find? (·.name = n) with
    | none => simp
    | some e =>
      have hu := h.unset e (List.mem_of_find?_eq_some hf)
      simp [absE, hu.1, hu.2.1, absV]
      cases e.ty <;> rfl
  rw [abs, if_neg (by simp), this]
  rfl

/-! ## C172: memory -/

/-- C172: calls of the store fault nowhere, whatever fails for want of memory.  Partial: no data is asked for
(`C172_data_violated`), and data that is given has the length that the caller says. -/
theorem C172_no_fault_partial {T : List Ent} (h : Table T) (l : List Call) (hf : All Fair { builtin := T } l) :
    (run { builtin := T } l).isSome := by
  obtain ⟨s', as, _, q, _⟩ := run_spec l (table_inv h) hf
  rw [q]; rfl

/-- The copy of a text that is kept is the text up to its end, and it has an end, so that reading it as a C string stays inside
the block. -/
theorem C172_text_ends {m m' : Mem} {e : Ent} {t : List UInt8} {z iv : Int} {fail : Option Nat} {v : Str} (ht : e.ty = .str)
    (h : conv m e (some t) z fail = some (.ok (some v, iv, m'))) : 0 ∈ v.data ∧ v.data.takeWhile (· ≠ 0) = t.takeWhile (· ≠ 0) := by
  unfold conv at h
  rw [ht] at h
  simp only at h
  cases ha : m.alloc fail 0 with
  | none => rw [ha] at h; cases h
  | some p =>
    rw [ha] at h
    cases h
    clear ha ht
    refine ⟨by simp [dup], ?_⟩
    show (dup t).takeWhile (· ≠ 0) = _
    unfold dup
    induction t with
    | nil => simp
    | cons a t ih => by_cases hz : a = 0 <;> simp_all

/-- C172, violated: to ask for data writes behind the memory for the copy, whenever there is a value at all. -/
theorem C172_data_violated (s : S) (cls : Option String) (name : String) (d : Bool) (e : Ent) (v : Val) (p : Str)
    (hl : s.lookup name = some (d, e)) (ht : e.ty = .data) (hp : v.str = some p)
    (hv : v = match classOf e cls with
      | some c => c.val
      | none => if e.set then e.val else e.dflt) : s.get cls name false .data none = none := by
  have key : s.giveVal .data v none = none := by
    unfold S.giveVal
    simp only [hp]
    split
    · rfl
    · simp only [reduceCtorEq, if_false]
      rw [if_pos (by left; omega)]
  unfold S.get
  rw [hl]
  simp only
  rw [if_neg (by simp [ht])]
  cases hc : classOf e cls with
  | some c => rw [hc] at hv; simp only at hv ⊢; rw [← hv]; exact key
  | none =>
    rw [hc] at hv
    simp only [Bool.false_eq_true, if_false] at hv ⊢
    by_cases hs : e.set = true
    · rw [if_pos hs] at hv ⊢; rw [← hv]; exact key
    · rw [if_neg hs] at hv ⊢; rw [← hv]; exact key

/-- C172, violated: two bytes of data are stored and asked for. -/
theorem C172_data_run_violated :
    run start [{ op := .add "d" .data none 0 0 0 [] }, { op := .set none "d" (some [1, 2]) 2 }, { op := .get none "d" false .data }] = none ∧
    (run start [{ op := .add "d" .data none 0 0 0 [] }, { op := .set none "d" (some [1, 2]) 2 }]).isSome = true := by decide +kernel

/-- Example: a text is set for a class, set again, asked for, given back and deleted, with a failed allocation on the way. -/
def tour : List Call :=
  [{ op := .set (some "serialdev") "speed" (some [49, 49, 53]) 0 },
   { op := .set (some "serialdev") "speed" (some [49, 50]) 0, fail := some 0 },
   { op := .get (some "serialdev") "speed" false .str },
   { op := .get (some "ipmisol") "speed" false .str },
   { op := .get none "max-channels" false .int },
   { op := .set none "mttl" (some [51]) 0 },
   { op := .get (some "udp") "mttl" false .int },
   { op := .get (some "udp") "reuseaddr" false .bool },
   { op := .del (some "serialdev") "speed" false },
   { op := .get (some "serialdev") "speed" true .str }]

example : (run start tour).map (·.2) =
    some [.err .ok, .err .nomem, .str (some [49, 49, 53]), .str (some [57, 54, 48, 48, 78, 56, 49]), .int 1000, .err .ok, .int 3, .int 0,
      .err .ok, .err .notfound] := by decide +kernel

/-- `Fair` can be checked. -/
def fairB (s : S) : Op → Bool
  | .add _ ty strval intval _ _ _ => ty ≠ .data || strval.isNone || (0 ≤ intval && intval < 2147483647 && intval.toNat ≤ (strval.getD []).length)
  | .set _ name strval intval =>
    match s.lookup name with
    | some (_, e) => e.ty ≠ .data || intval < 0 || (intval < 2147483647 && intval.toNat ≤ (strval.getD []).length)
    | none => true
  | .get _ _ _ ty => ty ≠ .data
  | _ => true

/-- All calls of a run. -/
def check (P : S → Op → Bool) : S → List Call → Bool
  | _, [] => true
  | s, c :: l => P s c.op && match step s c with
    | some (s', _) => check P s' l
    | none => true

theorem all_check {P : S → Op → Prop} {B : S → Op → Bool} (hB : ∀ s o, B s o = true → P s o) (l : List Call) :
    ∀ s, check B s l = true → All P s l := by
  induction l with
  | nil => intro s _; trivial
  | cons c l ih =>
    intro s h
    unfold check at h
    rw [Bool.and_eq_true] at h
    refine ⟨hB _ _ h.1, fun s' a hs => ih s' ?_⟩
    have h2 := h.2
    rw [hs] at h2
    exact h2

theorem fair_of {s : S} {o : Op} (h : fairB s o = true) : Fair s o := by
  cases o with
  | add name ty strval intval min max enums =>
    intro ht
    simp only [fairB, ht, Bool.or_eq_true, Bool.and_eq_true, decide_eq_true_eq, ne_eq, not_true_eq_false, false_or] at h
    rcases h with h | h
    · left; simpa using h
    · right; exact ⟨h.1.1, h.1.2, h.2⟩
  | set cls name strval intval =>
    intro d e hl ht
    simp only [fairB, hl, ht, Bool.or_eq_true, Bool.and_eq_true, decide_eq_true_eq, ne_eq, not_true_eq_false, false_or] at h
    rcases h with h | h
    · exact .inl h
    · exact .inr ⟨h.1, h.2⟩
  | get cls name co ty => simpa [fairB, Fair] using h
  | _ => trivial

/-- The example is one of the runs the theorems speak of. -/
theorem tour_fair : All Fair start tour := all_check (fun _ _ => fair_of) _ _ (by decide +kernel)

example : (run start tour).isSome := C172_no_fault_partial builtins_table tour tour_fair

/-! ## C173: what was set is what is given -/

/-- C173: every sequence of calls is answered as a map from names to values would, but for calls that answer that there is no
memory, which change nothing.  Partial: as `C172_no_fault_partial`. -/
theorem C173_answers_partial {T : List Ent} (h : Table T) (l : List Call) (hf : All Fair { builtin := T } l) :
    ∃ s as m, run { builtin := T } l = some (s, as) ∧ Answers (first T) l as m := by
  obtain ⟨s', as, _, q, _, _, _, o⟩ := run_spec l (table_inv h) hf
  exact ⟨s', as, abs s', q, table_abs h ▸ o⟩

/-- C173: after any sequence of calls, a value that is set for a class (or for all) is the one that is then given for it. -/
theorem C173_set_get_partial {T : List Ent} (h : Table T) (l : List Call) (hf : All Fair { builtin := T } l)
    {s : S} {as : List Ans} (hr : run { builtin := T } l = some (s, as))
    (cls : Option String) (name : String) (t : List UInt8) (i : Int) (f f1 f2 f3 : Option Nat) (s1 s2 : S) (a : Ans)
    (hty : ∃ d e, s.lookup name = some (d, e) ∧ e.ty = .str)
    (h1 : step s ⟨.set cls name (some t) i, f, f1⟩ = some (s1, .err .ok))
    (h2 : step s1 ⟨.get cls name false .str, f2, f3⟩ = some (s2, a)) :
    a = .err .nomem ∨ a = .str (some (cstr t)) := by
  obtain ⟨s', as', leak, q, inv, _, _, _⟩ := run_spec l (table_inv h) hf
  rw [hr] at q
  cases q
  have hF : Fair s (.set cls name (some t) i) := by
    intro d e hl ht
    obtain ⟨d', e', hl', ht'⟩ := hty
    rw [hl'] at hl; cases hl
    rw [ht'] at ht; cases ht
  obtain ⟨x1, a1, k1, q1, i1, _, _, o1⟩ := step_spec inv ⟨.set cls name (some t) i, f, f1⟩ hF
  rw [h1] at q1; cases q1
  obtain ⟨x2, a2, k2, q2, i2, _, _, o2⟩ := step_spec i1 ⟨.get cls name false .str, f2, f3⟩ (by simp [Fair])
  rw [h2] at q2; cases q2
  obtain ⟨d, e, hl, ht⟩ := hty
  have hi : ∃ j : Info, abs s name = some j ∧ j.ty = .str := by
    unfold abs
    split
    · exact ⟨_, by simp [absR, hl]; rfl, ht⟩
    · simp only [M.udp, M.at]
      by_cases hn : name = "reuseaddr"
      · subst hn
        exact ⟨_, by simp [absR, hl]; rfl, by simp [Info.with, absE, ht]⟩
      · exact ⟨_, by simp [hn, absR, hl]; rfl, ht⟩
  obtain ⟨j, hj, hjt⟩ := hi
  rcases o1 with ⟨o1, _⟩ | o1
  · cases o1
  · have e1 : abs s1 = ((abs s).call (.set cls name (some t) i)).1 := congrArg Prod.fst o1
    rcases o2 with ⟨o2, _⟩ | o2
    · exact .inl o2
    · right
      have e2 : a = ((abs s1).call (.get cls name false .str)).2 := congrArg Prod.snd o2
      rw [e2, e1]
      simp only [M.call, hj, hjt, taken]
      cases cls with
      | none => simp [M.at, Info.with, hjt, askable, Info.value, V.ans]
      | some c => simp [M.at, Info.with, hjt, askable, Info.value, V.ans]

theorem conv_mem {m : Mem} {e : Ent} {t : Option (List UInt8)} {z : Int} {r : Err} (h : conv m e t z none = some (.error r)) : r ≠ .nomem := by
  unfold conv at h
  intro hr
  subst hr
  simp only [Mem.alloc, reduceCtorEq, if_false] at h
  repeat' (first | (simp at h; done) | split at h)

theorem lset_mem {s s' : S} {cls : Option String} {name : String} {t : Option (List UInt8)} {z : Int} {r : Err}
    (h : s.lset cls name t z none = some (s', r)) : r ≠ .nomem ∧ s'.rv = s.rv := by
  have hput : ∀ (x : S) b n e, (x.put b n e).rv = x.rv := by intro x b n e; unfold S.put; cases b <;> rfl
  unfold S.lset at h
  split at h
  · cases h; exact ⟨by decide, rfl⟩
  · split at h
    · cases h
    · rename_i hc
      cases h; exact ⟨conv_mem hc, rfl⟩
    · simp only at h
      split at h
      · obtain ⟨⟨v, m⟩, _, he⟩ := Option.map_eq_some_iff.1 h
        cases he; exact ⟨by decide, hput _ _ _ _⟩
      · split at h
        · obtain ⟨⟨v, m⟩, _, he⟩ := Option.map_eq_some_iff.1 h
          cases he; exact ⟨by decide, hput _ _ _ _⟩
        · simp only [Mem.alloc, reduceCtorEq, if_false] at h
          obtain ⟨⟨v, m⟩, _, he⟩ := Option.map_eq_some_iff.1 h
          cases he; exact ⟨by decide, hput _ _ _ _⟩

theorem give_mem (s : S) (a : Ans) : (s.give none a).2 = a ∧ (s.give none a).1.rv = s.rv := by
  simp [S.give, Mem.alloc]

theorem giveVal_mem {s s' : S} {ty : Ty} {v : Val} {a : Ans} (h : s.giveVal ty v none = some (s', a)) : a ≠ .err .nomem ∧ s'.rv = s.rv := by
  unfold S.giveVal at h
  cases ty <;> simp only at h
  · cases h; exact ⟨by simp, rfl⟩
  · cases h; exact ⟨by simp, rfl⟩
  · cases h; exact ⟨by simp, rfl⟩
  · split at h
    · cases h; exact ⟨by simp, rfl⟩
    · split at h
      · cases h
      · have := Option.some.inj h
        have h1 := give_mem s (.str (some ((‹Str›).data.takeWhile (· ≠ 0))))
        rw [this] at h1
        exact ⟨by intro hx; rw [hx] at h1; exact absurd h1.1 (by simp), h1.2⟩
  · split at h
    · cases h; exact ⟨by simp, rfl⟩
    · split at h
      · cases h
      · simp only [reduceCtorEq, if_false] at h
        split at h
        · cases h
        · have := Option.some.inj h
          have h1 := give_mem s (.data (some ((‹Str›).data.take v.int.toNat)))
          rw [this] at h1
          exact ⟨by intro hx; rw [hx] at h1; exact absurd h1.1 (by simp), h1.2⟩

theorem get_mem {s s' : S} {cls : Option String} {name : String} {co : Bool} {ty : Ty} {a : Ans}
    (h : s.get cls name co ty none = some (s', a)) : a ≠ .err .nomem ∧ s'.rv = s.rv := by
  unfold S.get at h
  split at h
  · cases h; exact ⟨by simp, rfl⟩
  · split at h
    · cases h; exact ⟨by simp, rfl⟩
    · split at h
      · exact giveVal_mem h
      · split at h
        · cases h; exact ⟨by simp, rfl⟩
        · split at h <;> exact giveVal_mem h

theorem add_mem {s s' : S} {name : String} {ty : Ty} {t : Option (List UInt8)} {z mi ma : Int} {en : List (List UInt8 × Int)} {r : Err}
    (h : s.add name ty t z mi ma en none = some (s', r)) : r ≠ .nomem ∧ s'.rv = s.rv := by
  unfold S.add at h
  split at h
  · cases h; exact ⟨by decide, rfl⟩
  · simp only [Mem.alloc, reduceCtorEq, if_false] at h
    cases t with
    | none => simp only at h; cases h; exact ⟨by decide, rfl⟩
    | some t =>
      simp only at h
      split at h
      · cases h
      · cases h; exact ⟨by decide, rfl⟩

theorem del_mem {s s' : S} {cls : Option String} {name : String} {dc : Bool} {r : Err}
    (h : s.del cls name dc = some (s', r)) : r ≠ .nomem ∧ s'.rv = s.rv := by
  have hput : ∀ (x : S) b n e, (x.put b n e).rv = x.rv := by intro x b n e; unfold S.put; cases b <;> rfl
  unfold S.del at h
  split at h
  · cases h; exact ⟨by decide, rfl⟩
  · split at h
    · split at h
      · cases h; exact ⟨by decide, rfl⟩
      · obtain ⟨m, _, h⟩ := Option.bind_eq_some_iff.1 h
        obtain ⟨m, _, h⟩ := Option.bind_eq_some_iff.1 h
        obtain ⟨m, _, h⟩ := Option.map_eq_some_iff.1 h
        cases h; exact ⟨by decide, hput _ _ _ _⟩
    · split at h
      · cases h; exact ⟨by decide, rfl⟩
      · split at h
        · cases h; exact ⟨by decide, rfl⟩
        · obtain ⟨m, _, h⟩ := Option.bind_eq_some_iff.1 h
          obtain ⟨m, _, h⟩ := Option.bind_eq_some_iff.1 h
          split at h
          · cases h
          · obtain ⟨m, _, h⟩ := Option.bind_eq_some_iff.1 h
            obtain ⟨m, _, h⟩ := Option.map_eq_some_iff.1 h
            cases h; exact ⟨by decide, rfl⟩

theorem reset_mem {s s' : S} (h : s.reset = some s') : s'.rv = s.rv := by
  unfold S.reset at h
  split at h
  · cases h; rfl
  · obtain ⟨m, _, h⟩ := Option.bind_eq_some_iff.1 h
    obtain ⟨m, _, h⟩ := Option.map_eq_some_iff.1 h
    cases h; rfl

theorem step_mem {s s' : S} {o : Op} {a : Ans} (hv : s.rv ≠ .nomem) (h : step s { op := o } = some (s', a)) : a ≠ .err .nomem ∧ s'.rv ≠ .nomem := by
  have rest : (s.once none).bind (fun s => if s.rv ≠ .ok then some (s, Ans.err s.rv) else s.call none o) = some (s', a) → a ≠ .err .nomem ∧ s'.rv ≠ .nomem := by
    intro h
    obtain ⟨x, hx, h⟩ := Option.bind_eq_some_iff.1 h
    have hxr : x.rv ≠ .nomem := by
      unfold S.once at hx
      split at hx
      · cases hx; exact hv
      · simp only [S.init, reduceCtorEq, if_false, Option.map_none] at hx
        obtain ⟨⟨y, r⟩, hy, hx⟩ := Option.map_eq_some_iff.1 hx
        cases hx
        exact (lset_mem hy).1
    split at h
    · cases h; exact ⟨by simpa using hxr, hxr⟩
    · cases o with
      | add name ty t z mi ma en =>
        obtain ⟨⟨y, r⟩, hy, h⟩ := Option.map_eq_some_iff.1 h
        cases h
        exact ⟨by simpa using (add_mem hy).1, by rw [(add_mem hy).2]; exact hxr⟩
      | set cls name t z =>
        obtain ⟨⟨y, r⟩, hy, h⟩ := Option.map_eq_some_iff.1 h
        cases h
        exact ⟨by simpa using (lset_mem hy).1, by rw [(lset_mem hy).2]; exact hxr⟩
      | get cls name co ty => exact ⟨(get_mem h).1, by rw [(get_mem h).2]; exact hxr⟩
      | del cls name dc =>
        obtain ⟨⟨y, r⟩, hy, h⟩ := Option.map_eq_some_iff.1 h
        cases h
        exact ⟨by simpa using (del_mem hy).1, by rw [(del_mem hy).2]; exact hxr⟩
      | reset =>
        obtain ⟨y, hy, h⟩ := Option.map_eq_some_iff.1 h
        cases h
        exact ⟨by simp, by rw [reset_mem hy]; exact hxr⟩
      | cleanup => cases h; exact ⟨by simp, hxr⟩
      | release i => cases h; exact ⟨by simp, hxr⟩
  cases o with
  | cleanup =>
    obtain ⟨y, hy, h⟩ := Option.map_eq_some_iff.1 h
    cases h
    exact ⟨by simp, by rw [show S.rv { y with lock := false, up := false } = y.rv from rfl, reset_mem hy]; exact hv⟩
  | release i =>
    simp only [step] at h
    split at h
    · obtain ⟨y, hy, h⟩ := Option.map_eq_some_iff.1 h
      cases h
      exact ⟨by simp, hv⟩
    · cases h; exact ⟨by simp, hv⟩
  | add _ _ _ _ _ _ _ => exact rest h
  | set _ _ _ _ => exact rest h
  | get _ _ _ _ => exact rest h
  | del _ _ _ => exact rest h
  | reset => exact rest h

/-- C173: no call answers that there is no memory unless an allocation failed, in it or in an earlier call. -/
theorem C173_memory (T : List Ent) (ops : List Op) {s : S} {as : List Ans}
    (hr : run { builtin := T } (ops.map fun o => { op := o }) = some (s, as)) : .err .nomem ∉ as := by
  have : ∀ (ops : List Op) (x : S) {y : S} {as : List Ans}, x.rv ≠ .nomem → run x (ops.map fun o => { op := o }) = some (y, as) → .err .nomem ∉ as := by
    intro ops
    induction ops with
    | nil => intro x y as _ h; cases h; simp
    | cons o ops ih =>
      intro x y as hx h
      simp only [List.map_cons, run] at h
      obtain ⟨⟨x1, a⟩, h1, h⟩ := Option.bind_eq_some_iff.1 h
      obtain ⟨⟨x2, as2⟩, h2, h⟩ := Option.map_eq_some_iff.1 h
      cases h
      obtain ⟨ha, hv⟩ := step_mem hx h1
      simp only [List.mem_cons, not_or]
      exact ⟨fun e => ha e.symm, ih x1 hv h2⟩
  exact this ops _ (by simp) hr

/-- The answers of the map to a sequence of calls. -/
noncomputable def M.calls (m : M) : List Op → List Ans
  | [] => []
  | o :: l => (m.call o).2 :: (m.call o).1.calls l

/-- C173: without failed allocations the answers are those of the map.  Partial: as `C172_no_fault_partial`. -/
theorem C173_exact_partial {T : List Ent} (h : Table T) (ops : List Op) (hf : All Fair { builtin := T } (ops.map fun o => { op := o })) :
    ∃ s, run { builtin := T } (ops.map fun o => { op := o }) = some (s, (first T).calls ops) := by
  obtain ⟨s, as, m, hr, hA⟩ := C173_answers_partial h _ hf
  have hn := C173_memory T ops hr
  have key : ∀ (ops : List Op) (m0 m : M) (as : List Ans), .err .nomem ∉ as → Answers m0 (ops.map fun o => { op := o }) as m → as = m0.calls ops := by
    intro ops
    induction ops with
    | nil => intro m0 m as _ h; cases h; rfl
    | cons o ops ih =>
      intro m0 m as hn h
      cases h with
      | nomem _ => simp at hn
      | call h => simp only [List.mem_cons, not_or] at hn; rw [M.calls, ih _ _ _ hn.2 h]
  exact ⟨s, by rw [hr, key ops _ _ _ hn hA]⟩

/-! What the map does, for the reader: these say that the map is what it should be. -/

/-- C173: a value that is set is the value in effect for its class. -/
theorem C173_value (i : Info) (c : String) (v : V) (co : Bool) : (i.with (some c) v).value (some c) co = some v := by
  simp [Info.with, Info.value]

/-- C173: a value that is set for all classes is in effect for the classes that have none of their own, and for no others. -/
theorem C173_value_all (i : Info) (c : Option String) (v : V) :
    (i.with none v).value c false = (match c.bind i.cls with | some w => some w | none => some v) ∧
    (i.with none v).value c true = i.value c true := by
  simp only [Info.with, Info.value]
  cases c.bind i.cls <;> simp

/-- C173: a value that is set for one class changes nothing for another class, for all, or for another name. -/
theorem C173_others (m : M) (c c' name name' : String) (t : Option (List UInt8)) (z : Int) (hc : c' ≠ c) (hn : name' ≠ name) :
    (m.call (.set (some c) name t z)).1 name' = m name' ∧
    (((m.call (.set (some c) name t z)).1 name).map fun i => (i.cls c', i.glob, i.dflt)) = (m name).map fun i => (i.cls c', i.glob, i.dflt) := by
  simp only [M.call]
  cases hm : m name with
  | none => simp [hm]
  | some i =>
    simp only
    cases taken i.ty i.min i.max i.enums t z with
    | error e => simp [hm]
    | ok v => simp [M.at, hn, Info.with, hc]

example : (run start [{ op := .set none "speed" (some [65]) 0 }, { op := .set (some "x") "speed" (some [66]) 0 },
      { op := .get (some "x") "speed" false .str }, { op := .get (some "y") "speed" false .str }, { op := .get (some "y") "speed" true .str },
      { op := .del (some "x") "speed" false }, { op := .get (some "x") "speed" false .str }]).map (·.2) =
    some [.err .ok, .err .ok, .str (some [66]), .str (some [65]), .err .notfound, .err .ok, .str (some [65])] := by decide +kernel

/-! ## C174: resetting -/

/-- The value a built-in default is made with never changes. -/
theorem call_keeps (m : M) (o : Op) (n : String) (i : Info) (hi : m n = some i) (hu : i.user = false) :
    ∃ j, (m.call o).1 n = some j ∧ j.user = false ∧ j.ty = i.ty ∧ j.dflt = i.dflt := by
  cases o with
  | add name ty strval intval min max enums =>
    simp only [M.call]
    cases hm : m name with
    | some x => exact ⟨i, hi, hu, rfl, rfl⟩
    | none =>
      have hn : ¬ n = name := fun h => by rw [h, hm] at hi; cases hi
      exact ⟨i, by simp [M.at, hn, hi], hu, rfl, rfl⟩
  | set cls name strval intval =>
    simp only [M.call]
    cases hm : m name with
    | none => exact ⟨i, hi, hu, rfl, rfl⟩
    | some x =>
      simp only
      cases taken x.ty x.min x.max x.enums strval intval with
      | error e => exact ⟨i, hi, hu, rfl, rfl⟩
      | ok v =>
        by_cases hn : n = name
        · subst hn
          rw [hm] at hi; cases hi
          exact ⟨i.with cls v, by simp [M.at], by cases cls <;> exact hu, by cases cls <;> rfl, by cases cls <;> rfl⟩
        · exact ⟨i, by simp [M.at, hn, hi], hu, rfl, rfl⟩
  | get cls name co ty =>
    simp only [M.call]
    cases hm : m name with
    | none => exact ⟨i, hi, hu, rfl, rfl⟩
    | some x =>
      simp only
      split
      · exact ⟨i, hi, hu, rfl, rfl⟩
      · cases x.value cls co <;> exact ⟨i, hi, hu, rfl, rfl⟩
  | del cls name dc =>
    cases cls with
    | some c =>
      simp only [M.call]
      cases hm : m name with
      | none => exact ⟨i, hi, hu, rfl, rfl⟩
      | some x =>
        simp only
        cases x.cls c with
        | none => exact ⟨i, hi, hu, rfl, rfl⟩
        | some _ =>
          by_cases hn : n = name
          · subst hn
            rw [hm] at hi; cases hi
            exact ⟨{ i with cls := fun x => if x = c then none else i.cls x }, by simp [M.at], hu, rfl, rfl⟩
          · exact ⟨i, by simp [M.at, hn, hi], hu, rfl, rfl⟩
    | none =>
      simp only [M.call]
      cases hm : m name with
      | none => exact ⟨i, hi, hu, rfl, rfl⟩
      | some x =>
        simp only
        cases hxu : x.user with
        | false => exact ⟨i, hi, hu, rfl, rfl⟩
        | true =>
          have hn : ¬ n = name := fun h => by
            rw [h, hm] at hi; cases hi; rw [hxu] at hu; cases hu
          simp only [Bool.not_true, Bool.false_eq_true, if_false]
          split
          · exact ⟨i, hi, hu, rfl, rfl⟩
          · exact ⟨i, by simp [M.at, hn, hi], hu, rfl, rfl⟩
  | reset => exact ⟨{ i with glob := none, cls := fun _ => none }, by simp [M.call, M.clear, hi], hu, rfl, rfl⟩
  | cleanup =>
    simp only [M.call, M.udp, M.at, M.clear]
    by_cases hn : n = "reuseaddr"
    · subst hn; exact ⟨_, by simp [hi]; rfl, by simp [Info.with, hu], by simp [Info.with], by simp [Info.with]⟩
    · exact ⟨{ i with glob := none, cls := fun _ => none }, by simp [hn, hi], hu, rfl, rfl⟩
  | release i' => exact ⟨i, hi, hu, rfl, rfl⟩

theorem answers_keeps {m m' : M} {l as} (h : Answers m l as m') : ∀ (n : String) (i : Info), m n = some i → i.user = false →
    ∃ j, m' n = some j ∧ j.user = false ∧ j.ty = i.ty ∧ j.dflt = i.dflt := by
  induction h with
  | nil => exact fun n i hi hu => ⟨i, hi, hu, rfl, rfl⟩
  | nomem _ ih => exact ih
  | @call m c l as m' _ ih =>
    intro n i hi hu
    obtain ⟨j, hj, hju, hjt, hjd⟩ := call_keeps m c.op n i hi hu
    obtain ⟨k, hk, hku, hkt, hkd⟩ := ih n j hj hju
    exact ⟨k, hk, hku, hkt.trans hjt, hkd.trans hjd⟩

/-- C174: after a reset every built-in default has the value of the table for every class.  Partial: that is not what it had when
the program started for `reuseaddr` of UDP, see `C174_udp_violated`; the rest as `C172_no_fault_partial`. -/
theorem C174_reset_partial {T : List Ent} (h : Table T) (l : List Call) (hf : All Fair { builtin := T } l)
    {s s1 s2 : S} {as : List Ans} {a : Ans} (hr : run { builtin := T } l = some (s, as)) (f f1 f2 f3 : Option Nat)
    (h1 : step s ⟨.reset, f, f1⟩ = some (s1, .err .ok))
    (cls : Option String) (e : Ent) (he : T.find? (·.name = e.name) = some e) (ht : e.ty ≠ .data)
    (h2 : step s1 ⟨.get cls e.name false e.ty, f2, f3⟩ = some (s2, a)) :
    a = .err .nomem ∨ a = (match e.ty with | .str => .str (e.dflt.str.map fun p => cstr p.data) | _ => .int e.dflt.int) := by
  obtain ⟨s', as', leak, q, inv, _, _, o⟩ := run_spec l (table_inv h) hf
  rw [hr] at q
  cases q
  rw [table_abs h] at o
  obtain ⟨x1, a1, k1, q1, i1, _, _, o1⟩ := step_spec inv ⟨.reset, f, f1⟩ trivial
  rw [h1] at q1; cases q1
  obtain ⟨x2, a2, k2, q2, i2, _, _, o2⟩ := step_spec i1 ⟨.get cls e.name false e.ty, f2, f3⟩ ht
  rw [h2] at q2; cases q2
  have hfi : ∃ i, first T e.name = some i ∧ i.user = false ∧ i.ty = e.ty ∧
      i.dflt = (match e.ty with
        | .str => .str (e.dflt.str.map fun p => cstr p.data)
        | .data => .data (e.dflt.str.map fun p => p.data.take e.dflt.int.toNat)
        | _ => .int e.dflt.int) := by
    simp only [first, M.udp, M.at]
    by_cases hn : e.name = "reuseaddr"
    · rw [hn] at he ⊢
      exact ⟨_, by simp [he]; rfl, by simp [Info.with], by simp [Info.with], by simp [Info.with]⟩
    · exact ⟨_, by simp only [hn, if_false, he]; rfl, rfl, rfl, rfl⟩
  obtain ⟨i, hi, hu, hit, hid⟩ := hfi
  obtain ⟨j, hj, hju, hjt, hjd⟩ := answers_keeps o e.name i hi hu
  rcases o1 with ⟨o1, _⟩ | o1
  · cases o1
  · have e1 : abs s1 = ((abs s).call .reset).1 := congrArg Prod.fst o1
    rcases o2 with ⟨o2, _⟩ | o2
    · exact .inl o2
    · right
      have e2 : a = ((abs s1).call (.get cls e.name false e.ty)).2 := congrArg Prod.snd o2
      rw [e2, e1]
      have hjt' : j.ty = e.ty := hjt.trans hit
      have hb : cls.bind (fun _ => (none : Option V)) = none := by cases cls <;> rfl
      simp only [M.call, M.clear, hj, Option.map_some, hjt', Info.value, hb]
      rw [if_neg (by cases e.ty <;> simp [askable])]
      simp only [Bool.false_eq_true, if_false, Option.getD_none, hjd, hid]
      revert ht
      cases e.ty <;> simp [V.ans]

/-- C174, violated: `reuseaddr` is false for UDP when the program starts and true after a reset, until all memory is cleaned up. -/
theorem C174_udp_violated :
    (run start [{ op := .get (some "udp") "reuseaddr" false .bool }, { op := .reset }, { op := .get (some "udp") "reuseaddr" false .bool },
      { op := .cleanup }, { op := .get (some "udp") "reuseaddr" false .bool }]).map (·.2) =
    some [.int 0, .err .ok, .int 1, .err .ok, .int 0] := by decide +kernel

/-- Example: a reset forgets what was set for a class and for all. -/
example : (run start [{ op := .set (some "tcp") "nodelay" (some trueLc) 0 }, { op := .set none "speed" (some [65]) 0 }, { op := .reset },
      { op := .get (some "tcp") "nodelay" false .bool }, { op := .get none "speed" false .str }]).map (·.2) =
    some [.err .ok, .err .ok, .err .ok, .int 0, .str (some [57, 54, 48, 48, 78, 56, 49])] := by decide +kernel

/-! ## C175: ranges -/

/-- A number in a text becomes the `int` with the same low 32 bits. -/
theorem C175_int (n : Nat) : -2147483648 ≤ toInt n ∧ toInt n ≤ 2147483647 ∧ (toInt n - n) % 4294967296 = 0 := by
  unfold toInt
  split <;> omega

/-- C175: a number given as a text is inside the range of the default; an enum is one of its values; a bool that is given as a
number is 0 or 1.  Partial: `C175_int_violated`, `C175_bool_violated`, `C175_timeout_violated`. -/
theorem C175_taken_partial (min max : Int) (enums : List (List UInt8 × Int)) (t : List UInt8) (st : Option (List UInt8)) (z i : Int) :
    (taken .int min max enums (some t) i = .ok (.int z) → min ≤ z ∧ z ≤ max) ∧
    (taken .enum min max enums st i = .ok (.int z) → ∃ n, st = some n ∧ (n, z) ∈ enums) ∧
    (taken .bool min max enums none i = .ok (.int z) → z = 0 ∧ i = 0 ∨ z = 1 ∧ i ≠ 0) := by
  refine ⟨fun h => ?_, fun h => ?_, fun h => ?_⟩
  · simp only [taken] at h
    cases hn : number t with
    | none => rw [hn] at h; cases h
    | some w =>
      rw [hn] at h
      simp only at h
      split at h
      · cases h; assumption
      · cases h
  · cases st with
    | none => simp [taken] at h
    | some n =>
      refine ⟨n, rfl, ?_⟩
      simp only [taken] at h
      cases hl : enums.lookup n with
      | none => rw [hl] at h; cases h
      | some w =>
        rw [hl] at h; cases h
        induction enums with
        | nil => simp at hl
        | cons x l ih =>
          obtain ⟨a, b⟩ := x
          by_cases hx : n = a
          · subst hx; simp at hl; simp [hl]
          · have : (n == a) = false := by simpa using hx
            simp only [List.lookup, this] at hl
            exact List.mem_cons_of_mem _ (ih hl)
  · simp only [taken] at h
    by_cases hi : i = 0
    · simp [hi] at h; left; exact ⟨h.symm, hi⟩
    · simp [hi] at h; right; exact ⟨h.symm, hi⟩

/-- C175, violated: a number that is given as a number is not compared with the range. -/
theorem C175_int_violated :
    (∀ min max enums i, taken .int min max enums none i = .ok (.int i)) ∧
    (run start [{ op := .set none "mttl" none 1000 }, { op := .get (some "udp") "mttl" false .int },
      { op := .set none "mttl" (some [49, 48, 48, 48]) 0 }]).map (·.2) = some [.err .ok, .int 1000, .err .range] :=
  ⟨fun _ _ _ _ => rfl, by decide +kernel⟩

/-- C175, violated: a bool that is given as a text may become any number. -/
theorem C175_bool_violated :
    (run start [{ op := .set none "nodelay" (some [55]) 0 }, { op := .get none "nodelay" false .bool }]).map (·.2) = some [.err .ok, .int 7] := by
  decide +kernel

/-- C175, violated: the connection timeout, the mDNS timeout and the time to hang up have no range in the table, so no text but
that of 0 is taken, not even that of the value in the table. -/
theorem C175_timeout_violated :
    (∀ e ∈ builtins, e.name ∈ ["con-timeout", "mdnstimeout", "hangup-when-done"] →
      e.ty = .int ∧ ∀ t i z, taken e.ty e.min e.max e.enums (some t) i = .ok (.int z) → z = 0) ∧
    (run start [{ op := .get (some "ssl") "con-timeout" false .int }, { op := .set none "con-timeout" (some [54, 48]) 0 }]).map (·.2) =
      some [.int 60, .err .range] := by
  refine ⟨fun e he hn => ?_, by decide +kernel⟩
  have hr : ∀ e ∈ builtins, e.name ∈ ["con-timeout", "mdnstimeout", "hangup-when-done"] → e.ty = .int ∧ e.min = 0 ∧ e.max = 0 := by
    decide +kernel
  obtain ⟨h1, h2, h3⟩ := hr e he hn
  refine ⟨h1, fun t i z hz => ?_⟩
  rw [h1, h2, h3] at hz
  have := (C175_taken_partial 0 0 e.enums t none z i).1 hz
  omega

/-- Example: the limits are inside the range. -/
example : taken .int 1 255 [] (some [50, 53, 53]) 0 = .ok (.int 255) ∧ taken .int 1 255 [] (some [48]) 0 = .error .range ∧
    taken .int 1 255 [] (some [49, 120]) 0 = .error .inval ∧ taken .enum 0 0 [([97], 4), ([98], 9)] (some [98]) 0 = .ok (.int 9) ∧
    taken .bool 0 0 [] none (-3) = .ok (.int 1) := by
  refine ⟨rfl, rfl, rfl, rfl, rfl⟩

/-! ## C176: memory is given back -/

/-- C176: every block of memory that is allocated belongs to an entry, to a class of an entry, or was given to the user, each to
one of them only.  Partial: without the calls that lose memory, see `C176_reset_violated` and `C176_del_violated`; the rest as
`C172_no_fault_partial`. -/
theorem C176_owned_partial {T : List Ent} (h : Table T) (l : List Call) (hf : All Fair { builtin := T } l)
    (hl : All (fun s o => ¬ Leaky s o) { builtin := T } l) {s : S} {as : List Ans} (hr : run { builtin := T } l = some (s, as)) (i : Nat) :
    s.mem.live.count i = entCnt i s.builtin + entCnt i s.added + s.user.count i ∧ s.mem.live.count i ≤ 1 := by
  obtain ⟨s', as', leak, q, inv, _, nl, _⟩ := run_spec l (table_inv h) hf
  rw [hr] at q
  cases q
  have := inv.heap.cnt i
  rw [nl hl] at this
  have h2 := inv.heap.uniq i
  rw [← inv.heap.cnt i] at h2
  exact ⟨by simpa using this, h2⟩

/-- C176: when the defaults of the user are deleted, what was given to the user is freed and all is cleaned up, no memory is left.
Partial: as `C176_owned_partial`. -/
theorem C176_all_partial {T : List Ent} (h : Table T) (l : List Call) (hf : All Fair { builtin := T } (l ++ [{ op := .cleanup }]))
    (hl : All (fun s o => ¬ Leaky s o) { builtin := T } (l ++ [{ op := .cleanup }])) {s : S} {as : List Ans}
    (hr : run { builtin := T } (l ++ [{ op := .cleanup }]) = some (s, as)) (ha : s.added = []) (hu : s.user = []) : s.mem.live = [] := by
  have hz : ∀ i, entCnt i s.builtin = 0 := by
    have split : ∀ (l : List Call) (x : S) {y : S} {as : List Ans}, run x (l ++ [{ op := .cleanup }]) = some (y, as) →
        ∃ z bs, run x l = some (z, bs) ∧ ∃ w, z.reset = some w ∧ y.builtin = w.builtin := by
      intro l
      induction l with
      | nil =>
        intro x y as hx
        refine ⟨x, [], rfl, ?_⟩
        simp only [List.nil_append, run, step] at hx
        cases hw : x.reset with
        | none => rw [hw] at hx; cases hx
        | some w =>
          rw [hw] at hx
          simp at hx
          exact ⟨w, rfl, by rw [← hx.1]⟩
      | cons c l ih =>
        intro x y as hx
        simp only [List.cons_append, run] at hx
        obtain ⟨⟨x1, a⟩, h1, hx⟩ := Option.bind_eq_some_iff.1 hx
        obtain ⟨⟨x2, as2⟩, h2, hx⟩ := Option.map_eq_some_iff.1 hx
        cases hx
        obtain ⟨z, bs, hz, hw⟩ := ih x1 h2
        exact ⟨z, a :: bs, by simp [run, h1, hz], hw⟩
    obtain ⟨z, bs, hz, w, hw, hb⟩ := split l _ hr
    have hfl : All Fair { builtin := T } l := by
      have : ∀ (l : List Call) (x : S), All Fair x (l ++ [{ op := .cleanup }]) → All Fair x l := by
        intro l
        induction l with
        | nil => intro x _; trivial
        | cons c l ih => intro x hx; exact ⟨hx.1, fun s' a hs => ih s' (hx.2 s' a hs)⟩
      exact this l _ hf
    obtain ⟨s', as', leak, q, inv, _⟩ := run_spec l (table_inv h) hfl
    rw [hz] at q
    cases q
    obtain ⟨s', leak', q, _, _, _, _, _, _, _, e0⟩ := reset_spec inv
    rw [hw] at q
    cases q
    rw [hb]
    exact e0
  have hc : ∀ i, s.mem.live.count i = 0 := by
    intro i
    rw [(C176_owned_partial h _ hf hl hr i).1, hz, ha, hu]
    rfl
  cases hm : s.mem.live with
  | nil => rfl
  | cons x l => have := hc x; rw [hm] at this; simp at this

/-- C176, violated: a reset loses the values of classes of data. -/
theorem C176_reset_violated :
    (run start [{ op := .add "d" .data none 0 0 0 [] }, { op := .set (some "c") "d" (some [1]) 1 }, { op := .cleanup },
      { op := .del none "d" true }, { op := .cleanup }]).map (fun x => (x.1.mem.live.length, x.1.added, x.1.user)) = some (1, [], []) := by
  decide +kernel

/-- C176, violated: the deletion of a default loses the string it was made with. -/
theorem C176_del_violated :
    (run start [{ op := .add "d" .str (some [65]) 0 0 0 [] }, { op := .del none "d" true }, { op := .cleanup }]).map
      (fun x => (x.1.mem.live.length, x.1.added, x.1.user)) = some (1, [], []) := by decide +kernel

/-- C176, violated: to clean up all memory leaves the defaults that were added. -/
theorem C176_cleanup_violated :
    (run start [{ op := .add "d" .int none 0 0 0 [] }, { op := .cleanup }]).map (fun x => x.1.mem.live.length) = some 2 := by
  decide +kernel

/-- `Leaky` can be checked. -/
def leakyB (s : S) : Op → Bool
  | .reset | .cleanup => (s.builtin ++ s.added).any fun e => e.ty = .data ∧ e.classes ≠ []
  | .del none name _ => s.added.any fun e => e.name = name ∧ e.dflt.str ≠ none
  | _ => false

theorem leaky_of {s : S} {o : Op} (h : (!leakyB s o) = true) : ¬ Leaky s o := by
  have hd : (s.builtin ++ s.added).any (fun e => decide (e.ty = .data ∧ e.classes ≠ [])) = false → NoData s := by
    intro h e he ht
    apply Classical.byContradiction
    intro hc
    have := List.any_eq_false.1 h e (List.mem_append.2 he)
    simp [ht, hc] at this
  cases o with
  | reset => intro hx; exact hx (hd (by simpa [leakyB] using h))
  | cleanup => intro hx; exact hx (hd (by simpa [leakyB] using h))
  | del cls name dc =>
    cases cls with
    | some c => exact id
    | none =>
      rintro ⟨e, he, hn, hs⟩
      simp only [leakyB, Bool.not_eq_true'] at h
      have := List.any_eq_false.1 h e he
      simp [hn, hs] at this
  | _ => exact id

/-- A whole life: a default is added, set, asked for and deleted, and all is given back. -/
def life : List Call :=
  [{ op := .add "mine" .str none 0 0 0 [] }, { op := .set (some "c") "mine" (some [65, 66]) 0 }, { op := .set none "mine" (some [67]) 0 },
   { op := .get (some "c") "mine" true .str }, { op := .set (some "c") "mine" (some [68]) 0 }, { op := .del none "mine" false },
   { op := .del none "mine" true }, { op := .set none "speed" (some [69]) 0 }, { op := .release 8 }]

example : (run start (life ++ [{ op := .cleanup }])).map (fun x => (x.1.mem.live, x.1.added, x.1.user, x.2)) =
    some ([], [], [], [.err .ok, .err .ok, .err .ok, .str (some [65, 66]), .err .ok, .err .inuse, .err .ok, .err .ok, .err .ok, .err .ok]) := by
  decide +kernel

example : All Fair start (life ++ [{ op := .cleanup }]) ∧ All (fun s o => ¬ Leaky s o) start (life ++ [{ op := .cleanup }]) :=
  ⟨all_check (fun _ _ => fair_of) _ _ (by decide +kernel),
    all_check (B := fun s o => !leakyB s o) (fun _ _ => leaky_of) _ _ (by decide +kernel)⟩

/-! ## C177: a call that fails changes nothing -/

theorem call_err {m : M} {o : Op} {e : Err} (he : e ≠ .ok) (h : (m.call o).2 = .err e) : (m.call o).1 = m := by
  have bad : ∀ {P : Prop}, Ans.err .ok = .err e → P := fun hx => by cases hx; exact absurd rfl he
  cases o with
  | add name ty strval intval min max enums =>
    simp only [M.call] at h ⊢
    cases hm : m name with
    | some x => rfl
    | none => rw [hm] at h; exact bad h
  | set cls name strval intval =>
    simp only [M.call] at h ⊢
    cases hm : m name with
    | none => rfl
    | some x =>
      rw [hm] at h
      simp only at h ⊢
      cases ht : taken x.ty x.min x.max x.enums strval intval with
      | error e => rfl
      | ok v => rw [ht] at h; exact bad h
  | get cls name co ty =>
    simp only [M.call]
    cases hm : m name with
    | none => rfl
    | some x =>
      simp only
      split
      · rfl
      · cases x.value cls co <;> rfl
  | del cls name dc =>
    cases cls with
    | some c =>
      simp only [M.call] at h ⊢
      cases hm : m name with
      | none => rfl
      | some x =>
        rw [hm] at h
        simp only at h ⊢
        cases hc : x.cls c with
        | none => rfl
        | some _ => rw [hc] at h; exact bad h
    | none =>
      simp only [M.call] at h ⊢
      cases hm : m name with
      | none => rfl
      | some x =>
        rw [hm] at h
        simp only at h ⊢
        split
        · rfl
        · rename_i hu
          rw [if_neg hu] at h
          split
          · rfl
          · rename_i hd
            rw [if_neg hd] at h
            exact bad h
  | release i => rfl
  | _ => exact bad h

/-- C177: after a call that answered an error, every further sequence of calls is answered as by the map from before the call, that
is, as if the call had not been made.  Partial: as `C172_no_fault_partial`. -/
theorem C177_failed_partial {T : List Ent} (h : Table T) (l : List Call) (hf : All Fair { builtin := T } l)
    {s s1 : S} {as : List Ans} (hr : run { builtin := T } l = some (s, as)) (c : Call) (hc : Fair s c.op) (e : Err) (he : e ≠ .ok)
    (h1 : step s c = some (s1, .err e)) : ∃ m, Answers (first T) l as m ∧ Answers (first T) (l ++ [c]) (as ++ [.err e]) m ∧
      ∀ (l' : List Call), All Fair s1 l' → ∃ s2 as2 m2, run s1 l' = some (s2, as2) ∧ Answers m l' as2 m2 := by
  obtain ⟨s', as', leak, q, inv, _, _, o⟩ := run_spec l (table_inv h) hf
  rw [hr] at q
  cases q
  rw [table_abs h] at o
  obtain ⟨x1, a1, k1, q1, i1, _, _, o1⟩ := step_spec inv c hc
  rw [h1] at q1; cases q1
  have same : abs s1 = abs s := by
    rcases o1 with ⟨_, o1⟩ | o1
    · exact o1
    · have e1 : abs s1 = ((abs s).call c.op).1 := congrArg Prod.fst o1
      have e2 : Ans.err e = ((abs s).call c.op).2 := congrArg Prod.snd o1
      rw [e1]
      exact call_err he e2.symm
  have app : ∀ {l : List Call} {as : List Ans} {m0 m m' : M} {a : Ans}, Answers m0 l as m → Answers m [c] [a] m' → Answers m0 (l ++ [c]) (as ++ [a]) m' := by
    intro l as m0 m m' a hA hB
    induction hA with
    | nil => exact hB
    | nomem _ ih => exact .nomem (ih hB)
    | call _ ih => exact .call (ih hB)
  refine ⟨abs s, o, app o ?_, fun l' hf' => ?_⟩
  · rcases o1 with ⟨o1, _⟩ | o1
    · rw [o1]; exact .nomem .nil
    · have e1 : abs s1 = ((abs s).call c.op).1 := congrArg Prod.fst o1
      have e2 : Ans.err e = ((abs s).call c.op).2 := congrArg Prod.snd o1
      rw [e2]
      have : ((abs s).call c.op).1 = abs s := e1.symm.trans same
      refine .call ?_
      rw [this]
      exact .nil
  · obtain ⟨s2, as2, _, q2, _, _, _, o2⟩ := run_spec l' i1 hf'
    exact ⟨s2, as2, abs s2, q2, same ▸ o2⟩

example : (run start [{ op := .set (some "c") "speed" (some [65]) 0, fail := some 1 }, { op := .get (some "c") "speed" false .str },
      { op := .add "speed" .int none 3 0 9 [] }, { op := .del none "speed" true }, { op := .get (some "c") "speed" false .int }]).map (·.2) =
    some [.err .nomem, .str (some [57, 54, 48, 48, 78, 56, 49]), .err .exists, .err .notsup, .err .inval] := by decide +kernel

/-! ## C178: addresses and counts -/

/-- C178: the address that is put in place is the one the text stands for, and nothing else is ever put in place; without a text
the old one stays.  Partial: the result is 1 if all is well, see `C178_addr_violated`. -/
theorem C178_addr_partial {A : Type} (scan : List UInt8 → Except Int (A × Bool × Bool)) (a : Ans) (rp : Bool) (rai : Option A) :
    (getAddr scan a rp rai).2 = rai ∨
    ∃ t ai isPort, a = .str (some t) ∧ scan t = .ok (ai, true, isPort) ∧ (rp = true → isPort = true) ∧ (getAddr scan a rp rai).2 = some ai := by
  unfold getAddr
  cases a with
  | str t =>
    cases t with
    | none => left; rfl
    | some t =>
      simp only
      cases hs : scan t with
      | error e => left; rfl
      | ok x =>
        obtain ⟨ai, sp, ip⟩ := x
        simp only
        by_cases hc : (rp ∧ !ip) ∨ !sp
        · left; rw [if_pos hc]
        · right
          refine ⟨t, ai, ip, rfl, ?_, ?_, by rw [if_neg hc]⟩
          · rw [hs]; cases sp <;> simp at hc ⊢
          · intro hr; cases ip <;> simp [hr] at hc ⊢
  | _ => left; rfl

/-- C178: an address of the right protocol is put in place, with a port if one is needed. -/
theorem C178_addr_put {A : Type} (scan : List UInt8 → Except Int (A × Bool × Bool)) (t : List UInt8) (rp isPort : Bool) (ai : A) (rai : Option A)
    (hs : scan t = .ok (ai, true, isPort)) (hp : rp = true → isPort = true) : (getAddr scan (.str (some t)) rp rai).2 = some ai := by
  unfold getAddr
  simp only [hs]
  rw [if_neg (by cases rp <;> cases isPort <;> simp at hp ⊢)]

/-- C178: without a text, with a text that is no address, or with an address of another protocol or without a needed port, the
result is an error that the callers see, except that no text means no address. -/
theorem C178_addr_errors {A : Type} (scan : List UInt8 → Except Int (A × Bool × Bool)) (t : List UInt8) (rp : Bool) (rai : Option A) :
    getAddr scan (.str none) rp rai = (2, rai) ∧ useAddr 2 = none ∧
    (∀ e, scan t = .error e → getAddr scan (.str (some t)) rp rai = (e, rai)) ∧
    (∀ ai sp ip, scan t = .ok (ai, sp, ip) → sp = false ∨ rp = true ∧ ip = false → getAddr scan (.str (some t)) rp rai = (7, rai)) ∧ useAddr 7 = some 7 := by
  refine ⟨rfl, rfl, fun e h => by simp [getAddr, h], fun ai sp ip h hc => ?_, rfl⟩
  unfold getAddr
  simp only [h]
  rw [if_pos (by rcases hc with rfl | ⟨rfl, rfl⟩ <;> simp)]

/-- C178, violated: whenever the default for the local address is an address, the gensios that use it are refused, with the error
"out of memory". -/
theorem C178_addr_violated {A : Type} (scan : List UInt8 → Except Int (A × Bool × Bool)) (t : List UInt8) (ai : A) (isPort : Bool)
    (rai : Option A) (hs : scan t = .ok (ai, true, isPort)) :
    useAddr (getAddr scan (.str (some t)) false rai).1 = some 1 ∧ useAddr (getAddr scan (.str none) false rai).1 = none := by
  simp [getAddr, hs, useAddr]

/-- C178: a count is given only if it is not negative, and then exactly. -/
theorem C178_uint (a : Ans) (n : Nat) : getUint a = .ok n ↔ a = .int n := by
  unfold getUint
  cases a with
  | int z =>
    by_cases hz : z < 0
    · simp only [hz, if_true]
      constructor
      · intro h; cases h
      · intro h; injection h with h; omega
    · simp only [hz, if_false]
      constructor
      · intro h; injection h with h; congr 1; omega
      · intro h; injection h with h; congr 1; omega
  | _ => simp

example : getUint (.int (-1)) = .error .inval ∧ getUint (.int 7) = .ok 7 := ⟨rfl, rfl⟩

end Gensio.Defaults
