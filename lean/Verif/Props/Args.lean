import Verif.Model.Args
import Verif.Lemmas.Args
/-!
# C05, C06, C07: quoting, splitting and escapes
-/
namespace Gensio.Args

/-! ## C05: quoting -/

/-- Strings joined with one separator character between them. -/
def joinQuoted (sep : UInt8) : List (List UInt8) → List UInt8
  | [] => []
  | [a] => quoteString a
  | a :: b :: l => quoteString a ++ sep :: joinQuoted sep (b :: l)

/-- **C05.**  For any list of strings, the quoted forms joined by any one of the default
separators split, with the default separators, into exactly the list, consuming the whole
text.  (A C string has no NUL; the theorem does not even need that.) -/
theorem C05_quote_roundtrip (sep : UInt8) (hsep : sep ∈ defaultSeps) (l : List (List UInt8)) :
    strToArgv none (joinQuoted sep l) = .ok l [] := by
  have hq : isSep 34 defaultSeps = false := by decide
  have hs : isSep sep defaultSeps = true ∧ sep ≠ 34 ∧ sep ≠ 39 ∧ sep ≠ 92 := by
    revert sep; decide
  show strToArgvEndchar defaultSeps [] _ = _
  induction l with
  | nil => exact strToArgv_done rfl
  | cons a l ih =>
    have g := gettok_quoteString (seps := defaultSeps) (endchars := []) [] a (by simp) hq (by simp)
    cases l with
    | nil =>
      simp only [joinQuoted]
      rw [strToArgv_tok (by simpa using g.1)]
      rfl
    | cons b l =>
      simp only [joinQuoted]
      rw [strToArgv_tok (by simpa using g.2.1 sep (joinQuoted sep (b :: l)) hs.1 hs.2.1 hs.2.2.1 hs.2.2.2)]
      rw [ih]

/-- `a"b\ c`, the empty string and `'` survive. -/
example : strToArgv none (joinQuoted 32 [[97, 34, 98, 92, 32, 99], [], [39]]) =
    .ok [[97, 34, 98, 92, 32, 99], [], [39]] [] := by decide

/-- **C05, inside an argument list.**  Quoted strings also survive as the arguments
`(a,b,...)` of a gensio string with any text following the comma. -/
theorem C05_quote_scan_args (l : List (List UInt8)) (tail : List UInt8) :
    scanArgs (40 :: (joinQuoted 44 l ++ 41 :: 44 :: tail)) = .ok l tail ∧
    scanArgs (40 :: (joinQuoted 44 l ++ [41])) = .ok l [] := by
  have hq : isSep 34 (defaultSeps ++ [44]) = false := by decide
  have key : ∀ rest, strToArgvEndchar (defaultSeps ++ [44]) [41] (joinQuoted 44 l ++ 41 :: rest) =
      .ok l (41 :: rest) := by
    intro rest
    induction l with
    | nil =>
      apply strToArgv_done
      simp only [joinQuoted, List.nil_append, gettok]
      rw [skipSeps_nonsep (by decide)]
      simp
    | cons a l ih =>
      have g := gettok_quoteString (seps := defaultSeps ++ [44]) (endchars := [41]) [] a (by simp)
        hq (by decide)
      cases l with
      | nil =>
        simp only [joinQuoted]
        have g3 := g.2.2 41 rest (by decide) (by decide) (by decide) (by decide) (by decide)
          (by decide)
        rw [List.nil_append] at g3
        rw [strToArgv_tok g3]
        rw [strToArgv_done (rest := 41 :: rest)]
        simp only [gettok]
        rw [skipSeps_nonsep (by decide)]
        simp
      | cons b l =>
        simp only [joinQuoted, List.append_assoc, List.cons_append]
        have g3 := g.2.1 44 (joinQuoted 44 (b :: l) ++ 41 :: rest) (by decide) (by decide)
          (by decide) (by decide)
        rw [List.nil_append] at g3
        rw [strToArgv_tok g3]
        rw [ih]
  constructor
  · simp only [scanArgs, key]
  · simp only [scanArgs, key]

example : scanArgs (40 :: (joinQuoted 44 [[41], [44, 44]] ++ [41, 44, 65])) = .ok [[41], [44, 44]] [65] := by
  decide

/-- **C05, memory.**  The memory allocated by `gensio_quote_string` is exactly the quoted
text and its NUL. -/
theorem C05_quote_alloc (s : List UInt8) : quoteAlloc s = (quoteString s).length + 1 := by
  have h : ∀ n, s.foldl (fun n c => if c = 92 ∨ c = 34 then n + 2 else n + 1) n =
      n + (s.flatMap quoteChar).length := by
    induction s with
    | nil => intro n; simp
    | cons c s ih =>
      intro n
      simp only [List.foldl_cons, List.flatMap_cons, List.length_append, ih]
      by_cases hc : c = 92 ∨ c = 34
      · simp [quoteChar, hc]; omega
      · simp [quoteChar, hc]; omega
  simp only [quoteAlloc, h, quoteString]
  simp; omega

/-- Text stored by a bounded print into old memory `m`: as much as fits, then a NUL. -/
def Printed (m : List UInt8) (t : List UInt8) : List UInt8 :=
  if m.length = 0 then [] else t.take (m.length - 1) ++ 0 :: m.drop (min t.length (m.length - 1) + 1)

private structure PInv (m t : List UInt8) (b : PBuf) : Prop where
  pos : b.pos = t.length
  len : b.mem.length = m.length
  mem : t ≠ [] → b.mem = Printed m t
  mem0 : t = [] → b.mem = m

private theorem printed_len (m t : List UInt8) : (Printed m t).length = m.length := by
  unfold Printed; split
  · simp [*]
  · simp; omega

private theorem snprintf_inv {m t : List UInt8} {b : PBuf} (h : PInv m t b) (u : List UInt8)
    (hu : u ≠ []) : PInv m (t ++ u) (posSnprintf b u).1 ∧ (posSnprintf b u).2 = u.length := by
  obtain ⟨h1, h2, h3, h4⟩ := h
  have hne : t ++ u ≠ [] := by simp [hu]
  have hul : 0 < u.length := List.length_pos_iff.mpr hu
  -- the memory before is the old text followed by something
  have hm : t.length < m.length → b.mem.take t.length = t ∧ b.mem.drop (t.length + 1) = m.drop (t.length + 1) := by
    intro hlt
    by_cases ht : t = []
    · rw [h4 ht]; simp [ht]
    · rw [h3 ht]
      unfold Printed
      rw [if_neg (by omega), List.take_of_length_le (l := t) (by omega), show min t.length (m.length - 1) = t.length by omega]
      constructor
      · simp
      · rw [List.drop_append, List.drop_of_length_le (by omega)]; simp
  unfold posSnprintf
  split
  · rename_i hp
    refine ⟨⟨by simp [h1], h2, fun _ => ?_, fun h => absurd h hne⟩, rfl⟩
    have ht : t ≠ [] := by intro h; subst h; simp at h1; omega
    simp only
    rw [h3 ht]
    unfold Printed
    by_cases hz : m.length = 0
    · simp [hz]
    · rw [if_neg hz, if_neg hz, List.take_append_of_le_length (by omega)]
      congr 3
      simp; omega
  · rename_i hp
    refine ⟨⟨by simp [h1], ?_, fun _ => ?_, fun h => absurd h hne⟩, rfl⟩
    · simp only [List.length_append, List.length_take, List.length_drop]
      split <;> simp <;> omega
    · simp only
      by_cases hz : b.mem.length - b.pos = 0
      · rw [if_pos hz]
        simp only [List.append_nil, List.length_nil, Nat.add_zero, List.take_append_drop]
        by_cases ht : t = []
        · rw [h4 ht]; subst ht; simp at h1; 
          have : m = [] := by rw [← List.length_eq_zero_iff]; omega
          subst this; simp [Printed]
        · rw [h3 ht]
          unfold Printed
          split
          · rfl
          · rw [List.take_append_of_le_length (by omega)]
            congr 3
            simp; omega
      · rw [if_neg hz]
        obtain ⟨hm1, hm2⟩ := hm (by omega)
        rw [h1, h2] at *
        rw [hm1]
        unfold Printed
        rw [if_neg (by omega), List.take_append, List.take_of_length_le (l := t) (by omega),
          show m.length - 1 - t.length = m.length - t.length - 1 by omega]
        simp only [List.append_assoc, List.cons_append, List.nil_append]
        congr 3
        simp only [List.length_append, List.length_take, List.length_cons, List.length_nil]
        have e1 : ∀ k, b.mem.drop (t.length + 1 + k) = m.drop (t.length + 1 + k) := by
          intro k
          have := congrArg (List.drop k) hm2
          simpa [List.drop_drop] using this
        have := e1 (min (m.length - t.length - 1) u.length)
        rw [show t.length + (min (m.length - t.length - 1) u.length + (0 + 1)) =
          t.length + 1 + min (m.length - t.length - 1) u.length by omega, this]
        congr 1; omega

private theorem nul_inv {m t : List UInt8} {b : PBuf} (h : PInv m t b) (ht : t ≠ []) :
    PInv m t (nulAt b) := by
  obtain ⟨h1, h2, h3, h4⟩ := h
  unfold nulAt
  split
  · rename_i hp
    have : b.mem.set b.pos 0 = b.mem := by
      rw [h3 ht, h1]
      apply List.ext_getElem?
      intro i
      rw [List.getElem?_set]
      split
      · rename_i e; subst e
        rw [h1, h2] at hp
        rw [printed_len, if_pos hp]
        unfold Printed
        rw [if_neg (by omega), List.take_of_length_le (by omega)]
        simp
      · rfl
    rw [this]; exact ⟨h1, h2, h3, h4⟩
  · exact ⟨h1, h2, h3, h4⟩

private theorem quoteLoop_inv (s : List UInt8) : ∀ {m t : List UInt8} {b : PBuf} (_ : PInv m t b)
    (olen : Nat), t ≠ [] →
    PInv m (t ++ s.flatMap quoteChar) (quoteLoop b olen s).1 ∧
      (quoteLoop b olen s).2 = olen + (s.flatMap quoteChar).length := by
  induction s with
  | nil => intro m t b h olen _; exact ⟨by simpa [quoteLoop] using h, by simp [quoteLoop]⟩
  | cons c s ih =>
    intro m t b h olen ht
    have hc : quoteChar c ≠ [] := by unfold quoteChar; split <;> simp
    obtain ⟨i1, i2⟩ := snprintf_inv h (quoteChar c) hc
    obtain ⟨i3, i4⟩ := ih i1 (olen + (posSnprintf b (quoteChar c)).2) (by simp [ht])
    refine ⟨by simpa [quoteLoop] using i3, ?_⟩
    rw [quoteLoop, i4, i2, List.flatMap_cons, List.length_append]; omega

private theorem quoteStr_inv {m t : List UInt8} {b : PBuf} (h : PInv m t b) (s : List UInt8) :
    PInv m (t ++ quoteString s) (quoteStr b s).1 ∧ (quoteStr b s).2 = (quoteString s).length := by
  obtain ⟨a1, a2⟩ := snprintf_inv h [34] (by simp)
  obtain ⟨b1, b2⟩ := quoteLoop_inv s a1 (posSnprintf b [34]).2 (by simp)
  obtain ⟨c1, c2⟩ := snprintf_inv b1 [34] (by simp)
  have e : t ++ [34] ++ s.flatMap quoteChar ++ [34] = t ++ quoteString s := by simp [quoteString]
  rw [e] at c1
  refine ⟨nul_inv c1 (by simp [quoteString]), ?_⟩
  rw [quoteStr]; simp only
  rw [c2, b2, a2]
  simp only [quoteString, List.length_cons, List.length_append, List.length_nil]; omega

private theorem argvSn_inv (l : List (List UInt8)) : ∀ {m t : List UInt8} {b : PBuf} (_ : PInv m t b)
    (olen : Nat), olen = t.length →
    (∀ first, (first = true → t = []) → (first = false → t ≠ []) →
      ∃ t', PInv m t' (argvSnLoop b olen first l).1 ∧ (argvSnLoop b olen first l).2 = t'.length ∧
        t' = t ++ (if first ∨ l = [] then [] else [32]) ++ joinQuoted 32 l) := by
  induction l with
  | nil =>
    intro m t b h olen ho first _ _
    exact ⟨t, by simpa [argvSnLoop] using h, by simp [argvSnLoop, ho], by simp [joinQuoted]⟩
  | cons a l ih =>
    intro m t b h olen ho first hf1 hf2
    simp only [argvSnLoop]
    cases first with
    | true =>
      have ht := hf1 rfl; subst ht
      obtain ⟨q1, q2⟩ := quoteStr_inv h a
      simp only [if_true]
      obtain ⟨t', r1, r2, r3⟩ := ih q1 (olen + 0 + (quoteStr b a).2) (by simp [q2, ho]) false
        (by simp) (by simp [quoteString])
      refine ⟨t', r1, r2, ?_⟩
      rw [r3]
      cases l <;> simp [joinQuoted]
    | false =>
      obtain ⟨s1, s2⟩ := snprintf_inv h [32] (by simp)
      obtain ⟨q1, q2⟩ := quoteStr_inv s1 a
      simp only [Bool.false_eq_true, if_false]
      obtain ⟨t', r1, r2, r3⟩ := ih q1
        (olen + (posSnprintf b [32]).2 + (quoteStr (posSnprintf b [32]).1 a).2)
        (by simp [q2, s2, ho]; omega) false (by simp) (by simp)
      refine ⟨t', r1, r2, ?_⟩
      rw [r3]
      cases l <;> simp [joinQuoted]

/-- **C05, printing.**  `gensio_argv_snprintf` into a buffer of any size stays inside the
buffer, returns the length of the full text, stores as much of the text as fits followed
by a NUL; so if the buffer is larger than the returned length, the C string in it splits
back into the list. -/
theorem C05_argv_snprintf (m : List UInt8) (l : List (List UInt8)) :
    (argvSnprintf m l).2 = (joinQuoted 32 l).length ∧
    (argvSnprintf m l).1.length = m.length ∧
    (0 < m.length → ∃ old, (argvSnprintf m l).1 =
        (joinQuoted 32 l).take (m.length - 1) ++ 0 :: old) ∧
    ((argvSnprintf m l).2 < m.length →
      strToArgv none ((argvSnprintf m l).1.take (argvSnprintf m l).2) = .ok l []) := by
  have h0 : PInv m [] ⟨m, 0⟩ := ⟨rfl, rfl, by simp, by simp⟩
  obtain ⟨t', r1, r2, r3⟩ := argvSn_inv l h0 0 rfl true (by simp) (by simp)
  simp at r3
  subst r3
  have hfin : (argvSnprintf m l).1 = Printed m (joinQuoted 32 l) := by
    simp only [argvSnprintf]
    by_cases hl : joinQuoted 32 l = []
    · rw [hl] at r1 ⊢
      have e := r1.mem0 rfl
      unfold nulAt
      rw [e, r1.pos]
      by_cases hz : m.length = 0
      · have : m = [] := List.length_eq_zero_iff.mp hz
        subst this; simp [Printed, e]
      · rw [if_pos (by simp; omega)]
        cases m with
        | nil => simp at hz
        | cons x m => simp [Printed]
    · exact (nul_inv r1 hl).mem hl
  have hlen : (argvSnprintf m l).2 = (joinQuoted 32 l).length := by simpa [argvSnprintf] using r2
  refine ⟨hlen, by rw [hfin, printed_len], ?_, ?_⟩
  · intro hm
    rw [hfin]; unfold Printed
    rw [if_neg (by omega)]
    exact ⟨_, rfl⟩
  · intro hlt
    rw [hlen] at hlt ⊢
    rw [hfin]; unfold Printed
    rw [if_neg (by omega), List.take_of_length_le (l := joinQuoted 32 l) (by omega)]
    simp only [List.take_left']
    exact C05_quote_roundtrip 32 (by decide) l

example : argvSnprintf [1, 1, 1, 1, 1, 1] [[97], [98]] = ([34, 97, 34, 32, 34, 0], 7) := by decide

/-! ## C06: the splitter is total -/

/-- **C06.**  For every text, separator set and end-character set the splitter finishes,
and if it succeeds the place where it stops is in the text: at its end or at an end
character. -/
theorem C06_splitter_total (seps endchars s : List UInt8) :
    strToArgvEndchar seps endchars s = .inval ∨
    ∃ argv pre rest, strToArgvEndchar seps endchars s = .ok argv rest ∧ s = pre ++ rest ∧
      (rest = [] ∨ ∃ c r, rest = c :: r ∧ c ∈ endchars) := by
  obtain ⟨h1, h2⟩ := argvLoop_spec seps endchars (s.length + 1) s [] (by omega)
  cases h : strToArgvEndchar seps endchars s with
  | inval => exact Or.inl rfl
  | loop => exact absurd h h1
  | ok argv rest =>
    right
    obtain ⟨⟨pre, hp⟩, h4⟩ := h2 argv rest h
    exact ⟨argv, pre, rest, rfl, hp.symm, h4⟩

/-- **C06 for `gensio_scan_args`.** -/
theorem C06_scan_args_total (s : List UInt8) :
    scanArgs s = .inval ∨ ∃ argv pre rest, scanArgs s = .ok argv rest ∧ s = pre ++ rest := by
  unfold scanArgs
  split
  · rename_i s
    rcases C06_splitter_total (defaultSeps ++ [44]) [41] s with h | ⟨argv, pre, rest, h, h2, h3⟩
    · rw [h]; simp
    · rw [h]
      split
      · rename_i argv' str heq
        simp at heq
        obtain ⟨rfl, rfl⟩ := heq
        split
        · exact Or.inr ⟨_, 40 :: s, [], rfl, by simp⟩
        · rename_i str
          exact Or.inr ⟨_, 40 :: (pre ++ [41, 44]), str, rfl, by simp [h2]⟩
        · exact Or.inl rfl
      · exact Or.inl rfl
      · rename_i _ h5; exact (h5 _ _ rfl).elim
  · exact Or.inr ⟨_, [], [], rfl, rfl⟩
  · rename_i c s _; exact Or.inr ⟨_, [c], s, rfl, rfl⟩

example : strToArgvEndchar [32] [41] [97, 32, 98, 41, 99] = .ok [[97], [98]] [41, 99] := by decide

/-- Plain splitting of `s` at runs of separator characters: `Words p s ws` says that `ws`
are the maximal runs of non-separators in `s`. -/
inductive Words (p : UInt8 → Prop) : List UInt8 → List (List UInt8) → Prop
  | nil (g : List UInt8) : (∀ c ∈ g, p c) → Words p g []
  | cons (g w rest : List UInt8) (ws : List (List UInt8)) :
      (∀ c ∈ g, p c) → w ≠ [] → (∀ c ∈ w, ¬ p c) → (∀ c r, rest = c :: r → p c) →
      Words p rest ws → Words p (g ++ w ++ rest) (w :: ws)

/-- **C06, plain text.**  Without NUL, quotes and backslashes (and with no end characters)
splitting gives exactly the maximal runs of non-separators. -/
theorem C06_plain_split (seps s : List UInt8) (ws : List (List UInt8))
    (hs : ∀ c ∈ s, c ≠ 0 ∧ c ≠ 34 ∧ c ≠ 39 ∧ c ≠ 92)
    (hw : Words (· ∈ seps) s ws) : strToArgvEndchar seps [] s = .ok ws [] := by
  have hsep : ∀ c, c ≠ 0 → (isSep c seps = true ↔ c ∈ seps) := by
    intro c hc; simp [isSep, hc]
  induction hw with
  | nil g hg =>
    apply strToArgv_done
    have : skipSeps g seps = [] := by
      have := skipSeps_append_all (s := []) (seps := seps) (g := g) fun c hc =>
        (hsep c (hs c hc).1).mpr (hg c hc)
      simpa [skipSeps] using this
    simp [gettok, this]
  | cons g w rest ws hg hwne hwn hr hrest ih =>
    obtain ⟨c, w', rfl⟩ := List.exists_cons_of_ne_nil hwne
    have hplain : ∀ d ∈ c :: w', plain seps [] d := by
      intro d hd
      obtain ⟨h0, h1, h2, h3⟩ := hs d (by simp only [List.mem_append]; exact Or.inl (Or.inr hd))
      refine ⟨h0, h1, h2, h3, ?_, by simp⟩
      have := hwn d hd
      rw [← hsep d h0] at this; simpa using this
    have hgt : ∀ r', rest = [] ∧ r' = [] ∨ (∃ d, rest = d :: r') →
        gettok seps [] (g ++ (c :: w') ++ rest) = .tok (c :: w') r' := by
      intro r' hr'
      have e := strtobuf_plain (c :: w') (st := St.init) (rest := rest) rfl rfl hplain
      unfold gettok
      rw [List.append_assoc, skipSeps_append_all fun d hd =>
        (hsep d (hs d (by simp [hd])).1).mpr (hg d hd)]
      rw [List.cons_append, skipSeps_nonsep (hplain c (by simp)).2.2.2.2.1]
      simp only [List.contains_nil, Bool.false_eq_true, if_false]
      rw [← List.cons_append, e]
      rcases hr' with ⟨rfl, rfl⟩ | ⟨d, rfl⟩
      · simp [strtobuf, St.init, strtobufFinish]
      · obtain ⟨h0, h1, h2, h3⟩ := hs d (by simp)
        have hd := (hsep d h0).mpr (hr d r' rfl)
        have hst : stepChar seps [] { St.init with out := St.init.out ++ (c :: w') } d =
            ({ St.init with out := St.init.out ++ (c :: w') }, .brkSkip) := by
          simp [stepChar, processChar, St.init, hd, h0, h1, h2, h3]
        rw [strtobuf, hst]
        simp [strtobufFinish, St.init]
    have hrec := ih fun d hd => hs d (by simp [hd])
    cases rest with
    | nil =>
      rw [strToArgv_tok (hgt [] (Or.inl ⟨rfl, rfl⟩)), hrec]
    | cons d r' =>
      rw [strToArgv_tok (hgt r' (Or.inr ⟨d, rfl⟩))]
      -- skipping the separator first makes no difference
      have : strToArgvEndchar seps [] (d :: r') = strToArgvEndchar seps [] r' := by
        obtain ⟨h0, -⟩ := hs d (by simp)
        have hd := (hsep d h0).mpr (hr d r' rfl)
        have hk : gettok seps [] (d :: r') = gettok seps [] r' := by
          unfold gettok
          simp only [skipSeps, hd, if_true]
        cases hg' : gettok seps [] r' with
        | inval => rw [strToArgv_inval (hk.trans hg'), strToArgv_inval hg']
        | done x => rw [strToArgv_done (hk.trans hg'), strToArgv_done hg']
        | tok t x => rw [strToArgv_tok (hk.trans hg'), strToArgv_tok hg']
      rw [← this, hrec]

/-- Every text has such a splitting, so `C06_plain_split` covers every plain text. -/
theorem C06_words_exist (p : UInt8 → Prop) [DecidablePred p] (s : List UInt8) :
    ∃ ws, Words p s ws := by
  induction s with
  | nil => exact ⟨[], .nil [] (by simp)⟩
  | cons c s ih =>
    obtain ⟨ws, hws⟩ := ih
    by_cases hc : p c
    · refine ⟨ws, ?_⟩
      cases hws with
      | nil g hg => exact .nil (c :: s) (by simpa [hc] using hg)
      | cons g w rest ws hg hw hn hr h => exact .cons (c :: g) w rest ws (by simpa [hc] using hg) hw hn hr h
    · cases s with
      | nil => exact ⟨[[c]], .cons [] [c] [] [] (by simp) (by simp) (by simpa using hc) (by simp) (.nil [] (by simp))⟩
      | cons d s =>
        by_cases hd : p d
        · exact ⟨[c] :: ws, .cons [] [c] (d :: s) ws (by simp) (by simp) (by simpa using hc)
            (by intro a b h; simp at h; exact h.1 ▸ hd) hws⟩
        · generalize hds : d :: s = t at hws
          cases hws with
          | nil g hg => exact absurd (hg d (by rw [← hds]; simp)) hd
          | cons g w rest ws hg hw hn hr h =>
            cases g with
            | cons e g => simp at hds; exact absurd (hds.1 ▸ hg e (by simp)) hd
            | nil =>
              have hcw : ∀ x ∈ c :: w, ¬ p x := by
                intro x hx; simp at hx; rcases hx with rfl | hx
                · exact hc
                · exact hn x hx
              exact ⟨(c :: w) :: ws, Words.cons (p := p) [] (c :: w) rest ws (by simp) (by simp) hcw hr h⟩

example : Words (· ∈ defaultSeps) [32, 97, 98, 32, 9, 99] [[97, 98], [99]] :=
  .cons [32] [97, 98] [32, 9, 99] [[99]] (by decide) (by decide) (by decide) (by simp; decide)
    (.cons [32, 9] [99] [] [] (by decide) (by decide) (by decide) (by simp) (.nil [] (by simp)))

/-! ## C07: numeric escapes -/

private theorem esc_context {pre post a b : List UInt8} (x y z : UInt8) (v : UInt8)
    (hv : ∀ cv bs o, ∃ cv' bs', scan ⟨0, cv, 1, bs, o⟩ [x, y, z] = ⟨0, cv', 0, bs', o ++ [v]⟩)
    (hpre : cstrToBuf pre = some a) (hpost : cstrToBuf post = some b) :
    cstrToBuf (pre ++ [92, x, y, z] ++ post) = some (a ++ [v] ++ b) := by
  rw [cstrToBuf_eq] at *
  obtain ⟨cv, bs, h⟩ := after_backslash hpre
  obtain ⟨cv', bs', h2⟩ := hv cv bs a
  rw [scan_append, scan_append]
  have e : scan (scan St.init pre) [92, x, y, z] = ⟨0, cv', 0, bs', a ++ [v]⟩ := by
    rw [← h2, ← h]; rfl
  rw [e]
  exact finish_sim (scan_sim post (by simp [Sim, St.init])) hpost

/-- **C07, octal.**  Three octal digits after a backslash, in any context, give the byte
of that octal value (modulo 256). -/
theorem C07_octal (i j k : Fin 8) (pre post a b : List UInt8)
    (hpre : cstrToBuf pre = some a) (hpost : cstrToBuf post = some b) :
    cstrToBuf (pre ++ [92, 48 + .ofNat i, 48 + .ofNat j, 48 + .ofNat k] ++ post) =
      some (a ++ [UInt8.ofNat (i * 64 + j * 8 + k)] ++ b) := by
  apply esc_context _ _ _ _ _ hpre hpost
  intro cv bs o
  have h1 : ∀ i : Fin 8, isODigit (48 + .ofNat i) = true ∧ isDigit (48 + .ofNat i) = true := by decide
  refine ⟨UInt8.ofNat (i * 64 + j * 8 + k), 8, ?_⟩
  have hval : ∀ i j k : Fin 8, ((48 + UInt8.ofNat i - 48) * UInt8.ofNat 8 + (48 + .ofNat j) - 48) *
      UInt8.ofNat 8 + (48 + UInt8.ofNat k) - 48 = UInt8.ofNat (i * 64 + j * 8 + k) := by decide +kernel
  simp [scan, stepChar, h1, setOut]
  simpa using hval i j k

example : cstrToBuf ([97] ++ [92, 48 + .ofNat (3 : Fin 8), 48 + .ofNat (7 : Fin 8), 48 + .ofNat (7 : Fin 8)]
    ++ [34, 32, 34]) = some ([97] ++ [255] ++ [32]) := by decide

/-- All characters that are hexadecimal digits with the value they stand for. -/
def hexDigits : List (UInt8 × Nat) :=
  [(48, 0), (49, 1), (50, 2), (51, 3), (52, 4), (53, 5), (54, 6), (55, 7), (56, 8), (57, 9),
   (65, 10), (66, 11), (67, 12), (68, 13), (69, 14), (70, 15),
   (97, 10), (98, 11), (99, 12), (100, 13), (101, 14), (102, 15)]

/-- **C07, hexadecimal (partial).**  `\xHH` in any context gives the named byte if both
digits are decimal digits.  Missing from C07: digits that are letters, for which the code
is wrong (`C07_hex_violated`). -/
theorem C07_hex_partial (h l : UInt8 × Nat) (hh : h ∈ hexDigits) (hl : l ∈ hexDigits)
    (hd : isDigit h.1 = true ∧ isDigit l.1 = true) (pre post a b : List UInt8)
    (hpre : cstrToBuf pre = some a) (hpost : cstrToBuf post = some b) :
    cstrToBuf (pre ++ [92, 120, h.1, l.1] ++ post) =
      some (a ++ [UInt8.ofNat (h.2 * 16 + l.2)] ++ b) := by
  apply esc_context _ _ _ _ _ hpre hpost
  intro cv bs o
  have hx : ∀ h ∈ hexDigits, isXDigit h.1 = true := by decide
  refine ⟨UInt8.ofNat (h.2 * 16 + l.2), 16, ?_⟩
  have hval : ∀ h ∈ hexDigits, ∀ l ∈ hexDigits, isDigit h.1 = true ∧ isDigit l.1 = true →
      ((0 : UInt8) * UInt8.ofNat 16 + h.1 - 48) * UInt8.ofNat 16 + l.1 - 48 =
      UInt8.ofNat (h.2 * 16 + l.2) := by decide +kernel
  have ho : isODigit 120 = false := by decide
  simp [scan, stepChar, hx h hh, hx l hl, setOut, hd.1, hd.2, ho]
  simpa using hval h hh l hl hd

example : cstrToBuf [92, 120, 52, 49, 92, 120, 48, 57] = some [65, 9] := by decide

/-- **C07 is violated** for every hexadecimal escape containing a letter digit: the code
(lib/utils.c:451-454) subtracts `'A'`/`'a'` without adding 10.  The result is right
exactly when both digits are decimal. -/
theorem C07_hex_violated : ∀ h ∈ hexDigits, ∀ l ∈ hexDigits,
    (cstrToBuf [92, 120, h.1, l.1] = some [UInt8.ofNat (h.2 * 16 + l.2)] ↔
      (isDigit h.1 = true ∧ isDigit l.1 = true)) := by decide +kernel

example : cstrToBuf [92, 120, 48, 97] = some [0] := by decide   -- "\x0a" gives 0, not 10

/-! ## C62: named escapes -/

/-- The escapes of the C language with the character they name. -/
def named : List (UInt8 × UInt8) := [(97, 7), (98, 8), (102, 12), (110, 10), (114, 13), (116, 9), (118, 11)]

/-- **C62.**  In any context, a backslash and a letter with a meaning in C gives that control character, and
a backslash and any other character that is not an octal digit or `x` gives that character. -/
theorem C62_named (c v : UInt8) (hc : (c, v) ∈ named ∨ (v = c ∧ (∀ w, (c, w) ∉ named) ∧ isODigit c = false ∧ c ≠ 120))
    (pre post a b : List UInt8) (hpre : cstrToBuf pre = some a) (hpost : cstrToBuf post = some b) :
    cstrToBuf (pre ++ [92, c] ++ post) = some (a ++ [v] ++ b) := by
  rw [cstrToBuf_eq] at *
  obtain ⟨cv, bs, h⟩ := after_backslash hpre
  rw [scan_append, scan_append]
  have hv : simpleEsc c = v ∧ isODigit c = false ∧ c ≠ 120 := by
    rcases hc with hc | ⟨rfl, hn, h1, h2⟩
    · have : ∀ x ∈ named, simpleEsc x.1 = x.2 ∧ isODigit x.1 = false ∧ x.1 ≠ 120 := by decide
      exact this _ hc
    · refine ⟨?_, h1, h2⟩
      have hne : ∀ x ∈ named, v ≠ x.1 := by
        intro x hx e
        exact hn x.2 (by rw [e]; exact hx)
      simp only [named, List.mem_cons, List.not_mem_nil, or_false, forall_eq_or_imp, forall_eq] at hne
      obtain ⟨e1, e2, e3, e4, e5, e6, e7⟩ := hne
      simp [simpleEsc, e1, e2, e3, e4, e5, e6, e7]
  have e : scan (scan St.init pre) [92, c] = ⟨0, 0, 0, bs, a ++ [v]⟩ := by
    have : scan (scan St.init pre) [92, c] = scan ⟨0, cv, 1, bs, a⟩ [c] := by rw [← h]; rfl
    rw [this]
    simp [scan, stepChar, setOut, hv.1, hv.2.1, hv.2.2]
  rw [e]
  exact finish_sim (scan_sim post (by simp [Sim, St.init])) hpost

example : cstrToBuf [97, 92, 110, 92, 34, 98] = some [97, 10, 34, 98] := by decide

end Gensio.Args
