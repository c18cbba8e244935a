import Verif.Model.Args
/-! Helper lemmas for the argument scanner. -/
namespace Gensio.Args

theorem skipSeps_suffix (s seps : List UInt8) : skipSeps s seps <:+ s := by
  induction s with
  | nil => simp [skipSeps]
  | cons c s ih =>
    unfold skipSeps; split
    · exact ih.trans (List.suffix_cons c s)
    · exact List.suffix_refl _

theorem skipSeps_head {s seps : List UInt8} {c p} (h : skipSeps s seps = c :: p) :
    isSep c seps = false := by
  induction s with
  | nil => simp [skipSeps] at h
  | cons d s ih =>
    unfold skipSeps at h; split at h
    · exact ih h
    · simp at h; obtain ⟨rfl, -⟩ := h; rename_i h2; simpa using h2

theorem skipSeps_append_all {g s seps : List UInt8} (h : ∀ c ∈ g, isSep c seps = true) :
    skipSeps (g ++ s) seps = skipSeps s seps := by
  induction g with
  | nil => rfl
  | cons c g ih =>
    simp only [List.cons_append, skipSeps]
    rw [if_pos (h c (by simp))]
    exact ih fun c hc => h c (by simp [hc])

theorem skipSeps_nonsep {c : UInt8} {s seps : List UInt8} (h : isSep c seps = false) :
    skipSeps (c :: s) seps = c :: s := by
  simp [skipSeps, h]

theorem strtobuf_suffix (seps endchars : List UInt8) (s : List UInt8) : ∀ st,
    (strtobuf seps endchars st s).2 <:+ s := by
  induction s with
  | nil => intro st; simp [strtobuf]
  | cons c s ih =>
    intro st
    unfold strtobuf
    split
    · exact (ih _).trans (List.suffix_cons c s)
    · exact List.suffix_cons c s
    · exact List.suffix_refl _

theorem first_cont {seps endchars : List UInt8} {c : UInt8} (h1 : isSep c seps = false)
    (h2 : endchars.contains c = false) :
    ∃ st, stepChar seps endchars St.init c = (st, .cont) := by
  simp only [stepChar, St.init, processChar]
  simp only [ne_eq, not_true_eq_false, if_false, h1, h2, Bool.false_eq_true]
  split
  · exact ⟨_, rfl⟩
  · split
    · exact ⟨_, rfl⟩
    · split <;> exact ⟨_, rfl⟩

/-- What `gettok` leaves behind. -/
theorem gettok_spec (seps endchars s : List UInt8) :
    match gettok seps endchars s with
    | .inval => True
    | .done rest => rest <:+ s ∧ (rest = [] ∨ ∃ c r, rest = c :: r ∧ c ∈ endchars)
    | .tok _ rest => rest <:+ s ∧ rest.length < s.length := by
  unfold gettok
  have hs := skipSeps_suffix s seps
  split <;> rename_i heq
  · simp
  · rename_i rest
    split at heq
    · simp at heq; subst heq; simp
    · rename_i c p hsk
      rw [hsk] at hs
      split at heq
      · rename_i hc
        simp at heq; subst heq
        exact ⟨hs, Or.inr ⟨c, p, rfl, by simpa using hc⟩⟩
      · simp only at heq; split at heq <;> simp at heq
  · rename_i t rest
    split at heq
    · simp at heq
    · rename_i c p hsk
      rw [hsk] at hs
      split at heq
      · simp at heq
      · rename_i hc
        simp only at heq
        split at heq
        · simp at heq
        · simp at heq
          obtain ⟨-, rfl⟩ := heq
          obtain ⟨st, hst⟩ := first_cont (skipSeps_head hsk) (by simpa using hc)
          have e : strtobuf seps endchars St.init (c :: p) = strtobuf seps endchars st p := by
            rw [strtobuf, hst]
          rw [e]
          have h3 := strtobuf_suffix seps endchars p st
          refine ⟨h3.trans ((List.suffix_cons c p).trans hs), ?_⟩
          have h4 := h3.length_le
          have h5 := hs.length_le
          simp at h5; omega

theorem argvLoop_spec (seps endchars : List UInt8) (fuel : Nat) : ∀ s acc, s.length < fuel →
    argvLoop seps endchars fuel s acc ≠ .loop ∧
    ∀ argv rest, argvLoop seps endchars fuel s acc = .ok argv rest →
      rest <:+ s ∧ (rest = [] ∨ ∃ c r, rest = c :: r ∧ c ∈ endchars) := by
  induction fuel with
  | zero => intro s acc h; omega
  | succ fuel ih =>
    intro s acc h
    have hg := gettok_spec seps endchars s
    unfold argvLoop
    split <;> rename_i heq <;> rw [heq] at hg <;> simp only at hg
    · simp
    · refine ⟨by simp, ?_⟩
      intro argv rest he
      simp at he; obtain ⟨-, rfl⟩ := he
      exact hg
    · rename_i rest
      obtain ⟨h1, h2⟩ := ih rest (acc ++ [_]) (by omega)
      exact ⟨h1, fun a r he => ⟨(h2 a r he).1.trans hg.1, (h2 a r he).2⟩⟩

/-- The accumulator is only prepended. -/
theorem argvLoop_acc (seps endchars : List UInt8) (fuel : Nat) : ∀ s acc,
    argvLoop seps endchars fuel s acc =
      match argvLoop seps endchars fuel s [] with
      | .ok argv r => .ok (acc ++ argv) r
      | x => x := by
  induction fuel with
  | zero => intro s acc; rfl
  | succ fuel ih =>
    intro s acc
    unfold argvLoop
    cases gettok seps endchars s with
    | inval => rfl
    | done r => simp
    | tok t r =>
      simp only
      rw [ih r (acc ++ [t]), ih r ([] ++ [t])]
      cases argvLoop seps endchars fuel r [] <;> simp

/-- More fuel does not change a result. -/
theorem argvLoop_fuel (seps endchars : List UInt8) (f1 : Nat) : ∀ f2 s acc,
    s.length < f1 → s.length < f2 →
    argvLoop seps endchars f1 s acc = argvLoop seps endchars f2 s acc := by
  induction f1 with
  | zero => intro f2 s acc h; omega
  | succ f1 ih =>
    intro f2 s acc h1 h2
    obtain ⟨f2, rfl⟩ : ∃ k, f2 = k + 1 := ⟨f2 - 1, by omega⟩
    have hg := gettok_spec seps endchars s
    unfold argvLoop
    split <;> rename_i heq <;> rw [heq] at hg <;> simp only at hg
    exact ih _ _ _ (by omega) (by omega)

/-- One token: the loop in terms of the next token. -/
theorem strToArgv_tok {seps endchars s t rest : List UInt8}
    (h : gettok seps endchars s = .tok t rest) :
    strToArgvEndchar seps endchars s =
      match strToArgvEndchar seps endchars rest with
      | .ok argv r => .ok (t :: argv) r
      | x => x := by
  have hg := gettok_spec seps endchars s
  rw [h] at hg; simp only at hg
  unfold strToArgvEndchar
  rw [argvLoop, h]
  simp only [List.nil_append]
  rw [argvLoop_acc, argvLoop_fuel seps endchars s.length (rest.length + 1) rest [] (by omega) (by omega)]
  rfl

theorem strToArgv_done {seps endchars s rest : List UInt8}
    (h : gettok seps endchars s = .done rest) :
    strToArgvEndchar seps endchars s = .ok [] rest := by
  unfold strToArgvEndchar
  rw [argvLoop, h]

theorem strToArgv_inval {seps endchars s : List UInt8}
    (h : gettok seps endchars s = .inval) :
    strToArgvEndchar seps endchars s = .inval := by
  unfold strToArgvEndchar
  rw [argvLoop, h]

/-- A character with no special meaning to the scanner. -/
def plain (seps endchars : List UInt8) (c : UInt8) : Prop :=
  c ≠ 0 ∧ c ≠ 34 ∧ c ≠ 39 ∧ c ≠ 92 ∧ isSep c seps = false ∧ endchars.contains c = false

theorem strtobuf_plain {seps endchars : List UInt8} (w : List UInt8) : ∀ {st : St} {rest : List UInt8},
    st.inquote = 0 → st.escape = 0 → (∀ c ∈ w, plain seps endchars c) →
    strtobuf seps endchars st (w ++ rest) =
      strtobuf seps endchars { st with out := st.out ++ w } rest := by
  induction w with
  | nil => intros; simp
  | cons c w ih =>
    intro st rest h1 h2 h3
    obtain ⟨p1, p2, p3, p4, p5, p6⟩ := h3 c (by simp)
    have hs : stepChar seps endchars st c = (setOut st c, .cont) := by
      simp [stepChar, processChar, h1, h2, p1, p2, p3, p4, p5]
      simpa using p6
    rw [List.cons_append, strtobuf, hs]
    simp only
    rw [ih (by exact h1) (by exact h2) fun c hc => h3 c (by simp [hc])]
    simp [setOut]

/-- Reading the inside of a double-quoted text up to and including the closing quote. -/
theorem strtobuf_quoted {seps endchars : List UInt8} (s : List UInt8) : ∀ {st : St} {rest : List UInt8},
    st.inquote = 34 → st.escape = 0 →
    ∃ cv, strtobuf seps endchars st (s.flatMap quoteChar ++ 34 :: rest) =
      strtobuf seps endchars { st with inquote := 0, out := st.out ++ s, cval := cv } rest := by
  induction s with
  | nil =>
    intro st rest h1 h2
    refine ⟨st.cval, ?_⟩
    have hs : stepChar seps endchars st 34 = ({ st with inquote := 0 }, .cont) := by
      simp [stepChar, processChar, h1, h2]
    simp only [List.flatMap_nil, List.nil_append, List.append_nil]
    rw [strtobuf, hs]
  | cons c s ih =>
    intro st rest h1 h2
    by_cases hc : c = 92 ∨ c = 34
    · have hs : stepChar seps endchars st 92 = ({ st with escape := 1 }, .cont) := by
        simp [stepChar, processChar, h1, h2]
      have hs2 : stepChar seps endchars { st with escape := 1 } c =
          ({ st with escape := 0, cval := 0, out := st.out ++ [c] }, .cont) := by
        rcases hc with rfl | rfl <;> simp [stepChar, isODigit, isDigit, setOut, simpleEsc]
      obtain ⟨cv, hcv⟩ := ih (st := { st with escape := 0, cval := 0, out := st.out ++ [c] })
        (rest := rest) h1 rfl
      refine ⟨cv, ?_⟩
      have hq : quoteChar c = [92, c] := by simp [quoteChar, hc]
      simp only [List.flatMap_cons, hq, List.cons_append, List.nil_append]
      rw [strtobuf, hs]; simp only
      rw [strtobuf, hs2]; simp only
      rw [hcv]
      simp [h2]
    · have hs : stepChar seps endchars st c = (setOut st c, .cont) := by
        simp only [not_or] at hc
        simp [stepChar, processChar, h1, h2, hc.1, hc.2]
      obtain ⟨cv, hcv⟩ := ih (st := setOut st c) (rest := rest) h1 h2
      refine ⟨cv, ?_⟩
      have hq : quoteChar c = [c] := by simp [quoteChar, hc]
      simp only [List.flatMap_cons, hq, List.cons_append, List.nil_append]
      rw [strtobuf, hs]; simp only
      rw [hcv]
      simp [setOut]

/-- Scanning a quoted string from the start of a token. -/
theorem strtobuf_quoteString {seps endchars : List UInt8} (s rest : List UInt8) :
    ∃ cv, strtobuf seps endchars St.init (quoteString s ++ rest) =
      strtobuf seps endchars { St.init with out := s, cval := cv } rest := by
  have hs : stepChar seps endchars St.init 34 = ({ St.init with inquote := 34 }, .cont) := by
    simp [stepChar, processChar, St.init]
  obtain ⟨cv, h⟩ := strtobuf_quoted (seps := seps) (endchars := endchars) s
    (st := { St.init with inquote := 34 }) (rest := rest) rfl rfl
  refine ⟨cv, ?_⟩
  simp only [quoteString, List.cons_append, List.append_assoc, List.nil_append]
  rw [strtobuf, hs]; simp only
  rw [h]
  simp [St.init]

/-- What may follow a quoted token: end, a separator (skipped) or an end character. -/
theorem gettok_quoteString {seps endchars : List UInt8} (g s : List UInt8)
    (hg : ∀ c ∈ g, isSep c seps = true)
    (hq : isSep 34 seps = false) (hq2 : endchars.contains 34 = false) :
    gettok seps endchars (g ++ quoteString s) = .tok s [] ∧
    (∀ c rest, isSep c seps = true → c ≠ 34 → c ≠ 39 → c ≠ 92 →
      gettok seps endchars (g ++ (quoteString s ++ c :: rest)) = .tok s rest) ∧
    (∀ c rest, c ≠ 0 → isSep c seps = false → endchars.contains c = true → c ≠ 34 → c ≠ 39 → c ≠ 92 →
      gettok seps endchars (g ++ (quoteString s ++ c :: rest)) = .tok s (c :: rest)) := by
  have key : ∀ tail, gettok seps endchars (g ++ (quoteString s ++ tail)) =
      (match strtobufFinish (strtobuf seps endchars St.init (quoteString s ++ tail)).1 with
        | none => .inval
        | some t => .tok t (strtobuf seps endchars St.init (quoteString s ++ tail)).2) := by
    intro tail
    unfold gettok
    rw [skipSeps_append_all hg]
    have : quoteString s ++ tail = 34 :: (s.flatMap quoteChar ++ [34] ++ tail) := by
      simp [quoteString]
    rw [this, skipSeps_nonsep hq]
    simp only [hq2, Bool.false_eq_true, if_false]
    rfl
  refine ⟨?_, ?_, ?_⟩
  · have := key []
    rw [List.append_nil] at this
    rw [this]
    obtain ⟨cv, h⟩ := strtobuf_quoteString (seps := seps) (endchars := endchars) s []
    rw [List.append_nil] at h
    rw [h]
    simp [strtobuf, strtobufFinish, St.init]
  · intro c rest h1 h2 h3 h4
    rw [key]
    obtain ⟨cv, h⟩ := strtobuf_quoteString (seps := seps) (endchars := endchars) s (c :: rest)
    have hc0 : c ≠ 0 := by intro hc; subst hc; simp [isSep] at h1
    have hs : stepChar seps endchars { St.init with out := s, cval := cv } c =
        ({ St.init with out := s, cval := cv }, .brkSkip) := by
      simp [stepChar, processChar, St.init, h1, h2, h3, h4, hc0]
    rw [h, strtobuf, hs]
    simp [strtobufFinish, St.init]
  · intro c rest hc0 h0 h1 h2 h3 h4
    rw [key]
    obtain ⟨cv, h⟩ := strtobuf_quoteString (seps := seps) (endchars := endchars) s (c :: rest)
    have hs : stepChar seps endchars { St.init with out := s, cval := cv } c =
        ({ St.init with out := s, cval := cv }, .brk) := by
      simp [stepChar, processChar, St.init, h0, h2, h3, h4, hc0]
      simpa using h1
    rw [h, strtobuf, hs]
    simp [strtobufFinish, St.init]

/-! ### The C string scanner without separators never stops early -/

theorem stepChar_nosep (st : St) (c : UInt8) : (stepChar [] [] st c).2 = .cont := by
  have hp : ∀ st, (processChar [] [] st c).2 = .cont := by
    intro st
    simp only [processChar, isSep]
    repeat' split
    all_goals simp_all
  simp only [stepChar]
  repeat' split
  all_goals first | rfl | exact hp _

/-- The scanner as a fold. -/
def scan (st : St) (s : List UInt8) : St := s.foldl (fun st c => (stepChar [] [] st c).1) st

theorem strtobuf_eq_scan (s : List UInt8) : ∀ st, (strtobuf [] [] st s).1 = scan st s := by
  induction s with
  | nil => intro st; rfl
  | cons c s ih =>
    intro st
    have h := stepChar_nosep st c
    unfold strtobuf
    split
    · rename_i st' heq
      rw [ih]; simp [scan, heq]
    · rename_i heq; rw [heq] at h; simp at h
    · rename_i heq; rw [heq] at h; simp at h

theorem cstrToBuf_eq (s : List UInt8) : cstrToBuf s = strtobufFinish (scan St.init s) := by
  rw [cstrToBuf, strtobuf_eq_scan]

theorem scan_append (st : St) (a b : List UInt8) : scan st (a ++ b) = scan (scan st a) b := by
  simp [scan]

/-- Two scanner states that differ only in already produced output (by a common front
part `p`) and in fields that are dead while no escape is open. -/
def Sim (p : List UInt8) (a b : St) : Prop :=
  a.inquote = b.inquote ∧ a.escape = b.escape ∧ a.out = p ++ b.out ∧
  (a.escape ≥ 2 → a.cval = b.cval ∧ a.base = b.base)

theorem processChar_sim {seps ends p : List UInt8} {a b : St} (h : Sim p a b) (he : a.escape = 0)
    (c : UInt8) :
    Sim p (processChar seps ends a c).1 (processChar seps ends b c).1 := by
  obtain ⟨h1, h2, h3, h4⟩ := h
  simp only [processChar, h1]
  split
  · exact ⟨rfl, h2, h3, h4⟩
  · split
    · exact ⟨rfl, h2, h3, h4⟩
    · split
      · exact ⟨by simp, rfl, h3, by simp⟩
      · split
        · split
          · exact ⟨h1, h2, h3, h4⟩
          · split
            · exact ⟨h1, h2, h3, h4⟩
            · exact ⟨h1, h2, by simp [setOut, h3], by simp [setOut, he]⟩
        · exact ⟨h1, h2, by simp [setOut, h3], by simp [setOut, he]⟩

theorem stepChar_sim {seps ends p : List UInt8} {a b : St} (h : Sim p a b) (c : UInt8) :
    Sim p (stepChar seps ends a c).1 (stepChar seps ends b c).1 := by
  have h' := h
  obtain ⟨h1, h2, h3, h4⟩ := h'
  by_cases he : a.escape = 0
  · simp only [stepChar, ← h2, he, ne_eq, not_true_eq_false, if_false]
    exact processChar_sim h he c
  · by_cases he1 : a.escape = 1
    · simp only [stepChar, ← h2, he1, ne_eq, Nat.one_ne_zero, not_false_eq_true, if_true]
      split
      · exact ⟨h1, rfl, h3, by simp⟩
      · split
        · exact ⟨h1, rfl, h3, by simp⟩
        · exact ⟨h1, rfl, by simp [setOut, h3], by simp⟩
    · obtain ⟨h5, h6⟩ := h4 (by omega)
      simp only [stepChar, ← h2, ← h5, ← h6, ne_eq, he, not_false_eq_true, if_true, he1, if_false]
      split
      · split
        · exact ⟨h1, rfl, by simp [setOut, h3], by simp⟩
        · exact ⟨h1, rfl, h3, by simp [h6]⟩
      · exact processChar_sim (p := p) (a := { setOut a a.cval with escape := 0 })
          (b := { setOut b a.cval with escape := 0 }) ⟨h1, rfl, by simp [setOut, h3], by simp⟩ rfl c

theorem scan_sim {p : List UInt8} (s : List UInt8) : ∀ {a b : St}, Sim p a b →
    Sim p (scan a s) (scan b s) := by
  induction s with
  | nil => intro a b h; exact h
  | cons c s ih => intro a b h; exact ih (stepChar_sim h c)

/-- A numeric escape that may end here. -/
def Pend (st : St) : Prop := (st.base = 8 ∧ st.escape > 1) ∨ (st.base = 16 ∧ st.escape > 2)

theorem finish_num {st : St} (h : Pend st) :
    strtobufFinish st = if st.inquote ≠ 0 then none else some (st.out ++ [st.cval]) := by
  unfold Pend at h
  simp only [strtobufFinish, if_pos h]
  simp [setOut]

theorem finish_plain {st : St} (h : ¬ Pend st) :
    strtobufFinish st = if st.inquote ≠ 0 ∨ st.escape ≠ 0 then none else some st.out := by
  unfold Pend at h
  simp only [strtobufFinish, if_neg h]

theorem finish_some {st : St} {a : List UInt8} (h : strtobufFinish st = some a) :
    st.inquote = 0 ∧ ((Pend st ∧ a = st.out ++ [st.cval]) ∨ (st.escape = 0 ∧ a = st.out)) := by
  by_cases hp : Pend st
  · rw [finish_num hp] at h
    split at h
    · simp at h
    · rename_i hq
      simp at h hq
      exact ⟨hq, Or.inl ⟨hp, h.symm⟩⟩
  · rw [finish_plain hp] at h
    split at h
    · simp at h
    · rename_i hn
      simp at h hn
      exact ⟨hn.1, Or.inr ⟨hn.2, h.symm⟩⟩

theorem finish_sim {p : List UInt8} {a b : St} (h : Sim p a b) {o : List UInt8}
    (hb : strtobufFinish b = some o) : strtobufFinish a = some (p ++ o) := by
  obtain ⟨h1, h2, h3, h4⟩ := h
  obtain ⟨q, ⟨hp, rfl⟩ | ⟨he, rfl⟩⟩ := finish_some hb
  · obtain ⟨h5, h6⟩ := h4 (by unfold Pend at hp; omega)
    have hpa : Pend a := by unfold Pend at *; rw [h2, h6]; exact hp
    rw [finish_num hpa, h1, q, h3, h5]; simp
  · have hpa : ¬ Pend a := by unfold Pend; omega
    rw [finish_plain hpa, h1, q, h2, he, h3]; simp

/-- After a complete text, a backslash opens an escape and finishes a pending numeric one. -/
theorem after_backslash {st : St} {a : List UInt8} (h : strtobufFinish st = some a) :
    ∃ cv bs, (stepChar [] [] st 92).1 = ⟨0, cv, 1, bs, a⟩ := by
  refine ⟨st.cval, st.base, ?_⟩
  obtain ⟨q, ⟨hp, rfl⟩ | ⟨he, rfl⟩⟩ := finish_some h
  · have hx : isXDigit 92 = false := by decide
    have ho : isODigit 92 = false := by decide
    have h1 : st.escape ≠ 0 := by unfold Pend at hp; omega
    have h2 : st.escape ≠ 1 := by unfold Pend at hp; omega
    simp [stepChar, h1, h2, hx, ho, processChar, setOut, q]
  · simp [stepChar, he, processChar, q]

end Gensio.Args
