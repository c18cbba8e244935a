import Verif.Lemmas.Convcode

/-! The path values and the trellis of the decoder of lib/convcode.c, for any branch metric. -/

namespace Gensio.Convcode

/-- The state reached from `s` with the inputs `bs`. -/
def fin (c : Code) : Nat → List Nat → Nat
  | s, [] => s
  | s, b :: bs => fin c (c.next b s) bs

/-- The sum of the branch metrics on the path from `s` with the inputs `bs`. -/
def pcost (c : Code) (cost : Sym → Nat → Nat → Nat) : Nat → List Nat → List Sym → Nat
  | s, b :: bs, y :: ys => cost y b s + pcost c cost (c.next b s) bs ys
  | _, _, _ => 0

/-- Lists of bits. -/
def IsBits (bs : List Nat) : Prop := ∀ b ∈ bs, b < 2

theorem IsBits.cons {b : Nat} {bs : List Nat} (h : IsBits (b :: bs)) : b < 2 ∧ IsBits bs :=
  ⟨h b (by simp), fun x hx => h x (by simp [hx])⟩

theorem IsBits.append {a b : List Nat} (h : IsBits (a ++ b)) : IsBits a ∧ IsBits b :=
  ⟨fun x hx => h x (by simp [hx]), fun x hx => h x (by simp [hx])⟩

theorem fin_append (c : Code) (a b : List Nat) : ∀ s, fin c s (a ++ b) = fin c (fin c s a) b := by
  induction a with
  | nil => intro s; rfl
  | cons x a ih => intro s; exact ih _

theorem fin_lt (c : Code) (bs : List Nat) (h : IsBits bs) : ∀ s, s < c.states → fin c s bs < c.states := by
  induction bs with
  | nil => intro s hs; exact hs
  | cons b bs ih => intro s _; exact ih h.cons.2 _ (next_lt c b s h.cons.1)

theorem pcost_snoc (c : Code) (cost : Sym → Nat → Nat → Nat) (a : List Nat) (b : Nat) (y : Sym) :
    ∀ (ys : List Sym) (s : Nat), a.length = ys.length →
      pcost c cost s (a ++ [b]) (ys ++ [y]) = pcost c cost s a ys + cost y b (fin c s a) := by
  induction a with
  | nil =>
    intro ys s h
    cases ys with
    | nil => simp [pcost, fin]
    | cons _ _ => simp at h
  | cons x a ih =>
    intro ys s h
    cases ys with
    | nil => simp at h
    | cons z zs =>
      simp only [List.cons_append, pcost, fin]
      rw [ih zs _ (by simpa using h)]
      omega

theorem pcost_le (c : Code) (cost : Sym → Nat → Nat → Nat) (D : Nat) (bs : List Nat) (hb : IsBits bs) :
    ∀ (ys : List Sym) (s : Nat), s < c.states → (∀ y ∈ ys, ∀ b, b < 2 → ∀ p, p < c.states → cost y b p ≤ D) →
      pcost c cost s bs ys ≤ D * ys.length := by
  induction bs with
  | nil => intro ys s _ _; simp [pcost]
  | cons b bs ih =>
    intro ys s hs hD
    cases ys with
    | nil => simp [pcost]
    | cons y ys =>
      have h1 := hD y (by simp) b hb.cons.1 s hs
      have h2 := ih hb.cons.2 ys (c.next b s) (next_lt c b s hb.cons.1) fun z hz => hD z (by simp [hz])
      rw [pcost, List.length_cons, Nat.mul_add]
      omega

/-- The start values of the path values. -/
def ini (s : Nat) : Nat := if s = 0 then 0 else initOther

/-- What the decoder has after the symbols `ys`: for every state the smallest path value over all paths into it, and
a trellis from which a path with this value is found. -/
structure Inv (c : Code) (cost : Sym → Nat → Nat → Nat) (ys : List Sym) (d : Dec) : Prop where
  len : d.cols.length = ys.length
  opt : ∀ i, i < c.states → ∀ s bs, s < c.states → IsBits bs → bs.length = ys.length → fin c s bs = i →
    d.prev i ≤ ini s + pcost c cost s bs ys
  att : ∀ i, i < c.states → ∃ s bs, s < c.states ∧ IsBits bs ∧ bs.length = ys.length ∧ fin c s bs = i ∧
    d.prev i = ini s + pcost c cost s bs ys ∧ ∀ acc, backLoop c.states d.cols i acc = some (bs ++ acc)

theorem inv_init (c : Code) (cost : Sym → Nat → Nat → Nat) : Inv c cost [] Dec.init := by
  refine ⟨rfl, ?_, ?_⟩
  · intro i _ s bs _ _ hl hf
    have : bs = [] := List.length_eq_zero_iff.1 (by simpa using hl)
    subst this
    simp only [fin] at hf
    subst hf
    simp [Dec.init, ini]
  · intro i hi
    exact ⟨i, [], hi, (by intro b hb; simp at hb), rfl, rfl, by simp [Dec.init, ini, pcost], fun acc => rfl⟩

theorem colLoop_spec (f : Nat → Option (Nat × Nat)) (g : Nat → Nat × Nat) (n : Nat) : ∀ (i : Nat) (cur trel : Nat → Nat),
    (∀ j, i ≤ j → j < i + n → f j = some (g j)) →
    ∃ r, colLoop f n i cur trel = some r ∧ (∀ j, i ≤ j → j < i + n → r.1 j = (g j).1 ∧ r.2 j = (g j).2) ∧
      (∀ j, j < i → r.1 j = cur j ∧ r.2 j = trel j) := by
  induction n with
  | zero =>
    intro i cur trel _
    exact ⟨_, rfl, fun j h1 h2 => by omega, fun j _ => ⟨rfl, rfl⟩⟩
  | succ n ih =>
    intro i cur trel hf
    obtain ⟨r, h1, h2, h3⟩ := ih (i + 1) (upd cur i (g i).1) (upd trel i (g i).2) fun j a b => hf j (by omega) (by omega)
    refine ⟨r, ?_, ?_, ?_⟩
    · rw [colLoop, hf i (by omega) (by omega)]; exact h1
    · intro j a b
      by_cases e : j = i
      · subst e
        have := h3 j (by omega)
        simpa [upd] using this
      · exact h2 j (by omega) (by omega)
    · intro j a
      have := h3 j (by omega)
      simpa [upd, show j ≠ i by omega] using this

theorem minLoop_spec (prev : Nat → Nat) (n : Nat) : ∀ (i cs m : Nat), cs < i → m = prev cs → (∀ j, j < i → m ≤ prev j) →
    (minLoop prev n i cs m).1 < i + n ∧ (minLoop prev n i cs m).2 = prev (minLoop prev n i cs m).1 ∧
      ∀ j, j < i + n → (minLoop prev n i cs m).2 ≤ prev j := by
  induction n with
  | zero => intro i cs m h1 h2 h3; exact ⟨h1, h2, h3⟩
  | succ n ih =>
    intro i cs m h1 h2 h3
    rw [minLoop]
    split
    · rename_i hlt
      obtain ⟨a, b, e⟩ := ih (i + 1) i (prev i) (by omega) rfl (by
        intro j hj
        by_cases ej : j = i
        · subst ej; omega
        · have := h3 j (by omega); omega)
      exact ⟨by omega, b, fun j hj => e j (by omega)⟩
    · rename_i hge
      obtain ⟨a, b, e⟩ := ih (i + 1) cs m (by omega) h2 (by
        intro j hj
        by_cases ej : j = i
        · subst ej; omega
        · exact h3 j (by omega))
      exact ⟨by omega, b, fun j hj => e j (by omega)⟩

theorem inv_step (c : Code) (h : c.Ok) (hf : c.Fb) (soft : Soft) (cost : Sym → Nat → Nat → Nat) (D tsize : Nat)
    (ys : List Sym) (y : Sym) (d : Dec) (hi : Inv c cost ys d) (ht : ys.length < tsize)
    (hD : ∀ z ∈ ys ++ [y], ∀ b, b < 2 → ∀ p, p < c.states → cost z b p ≤ D)
    (hc : ∀ b, b < 2 → ∀ p, p < c.states → hamming c soft (c.convert b p) y = some (cost y b p))
    (hmax : initOther + D * (ys.length + 1) < 2 ^ 32) :
    ∃ d', decodeSym c soft tsize d y = some d' ∧ Inv c cost (ys ++ [y]) d' := by
  have h15 := states_le c h
  have hbound : ∀ i, i < c.states → d.prev i ≤ initOther + D * ys.length := by
    intro i hi'
    obtain ⟨s, bs, h1, h2, h3, h4, h5, _⟩ := hi.att i hi'
    have := pcost_le c cost D bs h2 ys s h1 fun z hz => hD z (by simp [hz])
    have : ini s ≤ initOther := by rw [ini]; split <;> omega
    omega
  have nowrap : ∀ p b, p < c.states → b < 2 → u32 (d.prev p + cost y b p) = d.prev p + cost y b p := by
    intro p b hp hb
    have h1 := hbound p hp
    have h2 := hD y (by simp) b hb p hp
    rw [Nat.mul_add] at hmax
    exact Nat.mod_eq_of_lt (by omega)
  -- the entry of state `i`
  let p1 := fun i : Nat => i >>> 1
  let p2 := fun i : Nat => (i >>> 1) ||| (1 <<< (c.k - 2))
  let dd := fun i p => d.prev p + cost y (prevBit c p i) p
  let g := fun i => if dd i (p2 i) < dd i (p1 i) then (dd i (p2 i), setBit (p2 i) (prevBit c (p2 i) i))
    else (dd i (p1 i), setBit (p1 i) (prevBit c (p1 i) i))
  have hg : ∀ i, 0 ≤ i → i < 0 + c.states → decodeOne c soft d.prev y i = some (g i) := by
    intro i _ hi'
    have hi'' : i < c.states := by omega
    obtain ⟨q1, q2⟩ := preds_lt c h i hi''
    have hb1 := prevBit_lt c (i >>> 1) i
    have hb2 := prevBit_lt c ((i >>> 1) ||| (1 <<< (c.k - 2))) i
    rw [decodeOne]
    simp only
    rw [if_pos ⟨hb1, q1, hb2, q2⟩, hc _ hb1 _ q1, hc _ hb2 _ q2]
    simp only [Option.bind_eq_bind, Option.bind_some]
    rw [nowrap _ _ q1 hb1, nowrap _ _ q2 hb2]
    simp only [g, dd, p1, p2]
    split <;> rfl
  obtain ⟨r, hr1, hr2, _⟩ := colLoop_spec (decodeOne c soft d.prev y) g c.states 0 d.curr (fun _ => 0) hg
  refine ⟨⟨r.1, d.prev, r.2 :: d.cols⟩, ?_, ?_, ?_, ?_⟩
  · rw [decodeSym, if_pos (by rw [hi.len]; exact ht), hr1]
    rfl
  · simp [hi.len]
  · intro i hi' s bs hs hbs hlen hfin
    have hr := (hr2 i (by omega) (by omega)).1
    simp only
    rw [hr]
    have hne : bs ≠ [] := by intro e; subst e; simp at hlen
    obtain ⟨a, b, rfl⟩ : ∃ a b, bs = a ++ [b] := ⟨bs.dropLast, bs.getLast hne, (List.dropLast_concat_getLast hne).symm⟩
    have hla : a.length = ys.length := by simpa using hlen
    obtain ⟨ha, hb⟩ := hbs.append
    have hb2 : b < 2 := hb b (by simp)
    rw [pcost_snoc c cost a b y ys s hla]
    rw [fin_append] at hfin
    simp only [fin] at hfin
    have hp := fin_lt c a ha s hs
    have hopt := hi.opt _ hp s a hs ha hla rfl
    obtain ⟨e1, e2⟩ := (pred_iff c h hf i hi' _ hp b hb2).1 hfin
    have key : dd i (fin c s a) ≤ ini s + (pcost c cost s a ys + cost y b (fin c s a)) := by
      simp only [dd]
      rw [← e2]
      omega
    have : (g i).1 ≤ dd i (fin c s a) := by
      simp only [g]
      rcases e1 with e1 | e1
      · have e1' : fin c s a = p1 i := e1
        rw [e1']
        split
        · simp only; omega
        · exact Nat.le_refl _
      · have e1' : fin c s a = p2 i := e1
        rw [e1']
        split
        · exact Nat.le_refl _
        · simp only; omega
    omega
  · intro i hi'
    obtain ⟨q1, q2⟩ := preds_lt c h i hi'
    obtain ⟨v1, v2⟩ := hr2 i (by omega) (by omega)
    -- the chosen predecessor
    have hch : ∃ p, p < c.states ∧ (p = i >>> 1 ∨ p = (i >>> 1) ||| (1 <<< (c.k - 2))) ∧
        g i = (dd i p, setBit p (prevBit c p i)) := by
      simp only [g]
      split
      · exact ⟨_, q2, Or.inr rfl, rfl⟩
      · exact ⟨_, q1, Or.inl rfl, rfl⟩
    obtain ⟨p, hp, hpp, hgi⟩ := hch
    obtain ⟨s, a, hs, ha, hla, hfa, hva, hback⟩ := hi.att p hp
    have hb2 := prevBit_lt c p i
    have hnext := (pred_iff c h hf i hi' p hp _ hb2).2 ⟨hpp, rfl⟩
    refine ⟨s, a ++ [prevBit c p i], hs, ?_, by simp [hla], ?_, ?_, ?_⟩
    · intro x hx
      rcases List.mem_append.1 hx with hx | hx
      · exact ha x hx
      · rw [List.mem_singleton] at hx; rw [hx]; exact hb2
    · rw [fin_append, hfa]; exact hnext
    · simp only
      rw [v1, hgi, pcost_snoc c cost a _ y ys s hla, hfa]
      simp only [dd]
      omega
    · intro acc
      rw [backLoop, if_pos hi', v2, hgi, stVal_setBit p _ (by omega), stBit_setBit p _ (by omega), hback]
      simp

theorem inv_syms (c : Code) (h : c.Ok) (hf : c.Fb) (soft : Soft) (cost : Sym → Nat → Nat → Nat) (D tsize : Nat)
    (zs : List Sym) : ∀ (ys : List Sym) (d : Dec), Inv c cost ys d → ys.length + zs.length ≤ tsize →
      (∀ z ∈ ys ++ zs, ∀ b, b < 2 → ∀ p, p < c.states → cost z b p ≤ D) →
      (∀ z ∈ zs, ∀ b, b < 2 → ∀ p, p < c.states → hamming c soft (c.convert b p) z = some (cost z b p)) →
      initOther + D * (ys.length + zs.length) < 2 ^ 32 →
      ∃ d', decodeSyms c soft tsize zs d = some d' ∧ Inv c cost (ys ++ zs) d' := by
  induction zs with
  | nil => intro ys d hi _ _ _ _; exact ⟨d, rfl, by simpa using hi⟩
  | cons z zs ih =>
    intro ys d hi ht hD hc hmax
    simp only [List.length_cons] at ht hmax
    have hmax' : initOther + D * (ys.length + 1) < 2 ^ 32 := by
      have : D * (ys.length + 1) ≤ D * (ys.length + (zs.length + 1)) := Nat.mul_le_mul_left _ (by omega)
      omega
    obtain ⟨d1, e1, i1⟩ := inv_step c h hf soft cost D tsize ys z d hi (by omega)
      (fun x hx => hD x (by simp at hx ⊢; rcases hx with hx | hx <;> simp [hx])) (hc z (by simp)) hmax'
    obtain ⟨d2, e2, i2⟩ := ih (ys ++ [z]) d1 i1 (by simp; omega) (by simpa using hD) (fun x hx => hc x (by simp [hx]))
      (by simp only [List.length_append, List.length_cons, List.length_nil]
          rw [show ys.length + (0 + 1) + zs.length = ys.length + (zs.length + 1) by omega]; exact hmax)
    refine ⟨d2, ?_, by simpa using i2⟩
    rw [decodeSyms, e1]
    exact e2

/-- The decoder finds a path of smallest cost from state 0. -/
theorem viterbi (c : Code) (h : c.Ok) (hf : c.Fb) (soft : Soft) (cost : Sym → Nat → Nat → Nat) (D tsize : Nat)
    (ys : List Sym) (ht : ys.length ≤ tsize)
    (hD : ∀ z ∈ ys, ∀ b, b < 2 → ∀ p, p < c.states → cost z b p ≤ D)
    (hc : ∀ z ∈ ys, ∀ b, b < 2 → ∀ p, p < c.states → hamming c soft (c.convert b p) z = some (cost z b p))
    (hmax : D * ys.length < initOther) :
    ∃ d bs, decodeSyms c soft tsize ys Dec.init = some d ∧ d.cols.length = ys.length ∧
      decodePath c d = some (bs, pcost c cost 0 bs ys) ∧ IsBits bs ∧ bs.length = ys.length ∧
      ∀ bs', IsBits bs' → bs'.length = ys.length → pcost c cost 0 bs ys ≤ pcost c cost 0 bs' ys := by
  obtain ⟨d, e, i⟩ := inv_syms c h hf soft cost D tsize ys [] Dec.init (inv_init c cost) (by simpa using ht)
    (by simpa using hD) hc (by simp only [List.length_nil, Nat.zero_add]; simp only [initOther] at *; omega)
  simp only [List.nil_append] at i
  have hpos := states_pos c
  obtain ⟨m1, m2, m3⟩ := minLoop_spec d.prev (c.states - 1) 1 0 (d.prev 0) (by omega) rfl (by
    intro j hj; rw [show j = 0 by omega]; exact Nat.le_refl _)
  rw [show 1 + (c.states - 1) = c.states by omega] at m1 m3
  obtain ⟨s, bs, hs, hb, hl, hfn, hv, hback⟩ := i.att _ m1
  have low : ∀ bs', IsBits bs' → bs'.length = ys.length →
      (minLoop d.prev (c.states - 1) 1 0 (d.prev 0)).2 ≤ pcost c cost 0 bs' ys := by
    intro bs' hb' hl'
    have h1 := fin_lt c bs' hb' 0 hpos
    have h2 := i.opt _ h1 0 bs' hpos hb' hl' rfl
    have h3 := m3 _ h1
    simp only [ini, if_true, Nat.zero_add] at h2
    omega
  have hs0 : s = 0 := by
    by_cases e0 : s = 0
    · exact e0
    · exfalso
      have hz : IsBits (List.replicate ys.length 0) := by
        intro b hb; rw [List.eq_of_mem_replicate hb]; omega
      have h1 := low _ hz (by simp)
      have h2 := pcost_le c cost D _ hz ys 0 hpos hD
      rw [m2, hv, ini, if_neg e0] at h1
      omega
  subst hs0
  simp only [ini, if_true, Nat.zero_add] at hv
  refine ⟨d, bs, e, i.len, ?_, hb, hl, ?_⟩
  · rw [decodePath]
    simp only [hback, List.append_nil, Option.bind_eq_bind, Option.bind_some]
    rw [m2, hv]
  · intro bs' hb' hl'
    have := low bs' hb' hl'
    rw [m2, hv] at this
    exact this

end Gensio.Convcode
