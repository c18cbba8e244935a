import Verif.Model.MuxId

/-! Properties of channel numbers: C31. -/

namespace Gensio.MuxId

/-- Channels in number order. -/
def Sorted (l : List Nat) : Prop := l.Pairwise (· < ·)

theorem sorted_lt {l : List Nat} (h : Sorted l) {i j : Nat} (hij : i < j) (hj : j < l.length) : l[i] < l[j] :=
  List.pairwise_iff_getElem.mp h i j (by omega) hj hij

theorem sorted_le {l : List Nat} (h : Sorted l) {i j : Nat} (hij : i ≤ j) (hj : j < l.length) : l[i] ≤ l[j] := by
  rcases Nat.lt_or_ge i j with c | c
  · exact Nat.le_of_lt (sorted_lt h c hj)
  · have : i = j := by omega
    subst this
    exact Nat.le_refl _

/-- The number to be tried at `l`, where `p` is the place for it. -/
inductive Try (max : Nat) (c : List Nat) (id l p : Nat) : Prop
  | mid : l = p → l < c.length → id < max → id ≤ c.getD l 0 → (∀ i (h : i < c.length), i < l → c[i] < id) → Try max c id l p
  | high : l = 0 → p = c.length → id < max → (∀ i (h : i < c.length), c[i] < id) → Try max c id l p
  | zero : l = 0 → p = c.length → id = 0 → Try max c id l p

theorem getD_eq {c : List Nat} {l : Nat} (h : l < c.length) : c.getD l 0 = c[l] := by
  simp [List.getD, List.getElem?_eq_getElem h]

/-- A number tried that is not the one of the channel there is free. -/
theorem Try.fresh {max : Nat} {c : List Nat} {id l p : Nat} (hs : Sorted c) (hm : 1 ≤ max) (h : Try max c id l p)
    (hne : id ≠ c.getD l 0) : id ∉ c ∧ id < max ∧ p ≤ c.length ∧ (id ≠ 0 → Sorted (c.take p ++ id :: c.drop p)) := by
  have key : (∀ i (h : i < c.length), i < p → c[i] < id) → (∀ i (h : i < c.length), p ≤ i → id < c[i]) →
      Sorted (c.take p ++ id :: c.drop p) := by
    intro h1 h2
    unfold Sorted
    rw [List.pairwise_append]
    refine ⟨hs.sublist (List.take_sublist _ _), ?_, ?_⟩
    · rw [List.pairwise_cons]
      refine ⟨?_, hs.sublist (List.drop_sublist _ _)⟩
      intro a ha
      obtain ⟨i, hi, rfl⟩ := List.mem_drop_iff_getElem.mp ha
      exact h2 _ _ (by omega)
    · intro a ha b hb
      obtain ⟨i, hi, rfl⟩ := List.mem_take_iff_getElem.mp ha
      have hlt : c[i] < id := h1 _ _ (by omega)
      rcases List.mem_cons.mp hb with rfl | hb
      · exact hlt
      · obtain ⟨j, hj, rfl⟩ := List.mem_drop_iff_getElem.mp hb
        exact Nat.lt_trans hlt (h2 _ _ (by omega))
  have notin : (∀ i (h : i < c.length), c[i] ≠ id) → id ∉ c := by
    intro hh hmem
    obtain ⟨i, hi, e⟩ := List.getElem_of_mem hmem
    exact hh i hi e
  cases h with
  | mid e hl hlt hle hprev =>
    subst e
    rw [getD_eq hl] at hne hle
    have hafter : ∀ i (h : i < c.length), l ≤ i → id < c[i] := by
      intro i hi hli
      have := sorted_le hs hli hi
      omega
    refine ⟨notin fun i hi e => ?_, hlt, by omega, fun _ => key hprev hafter⟩
    rcases Nat.lt_or_ge i l with c1 | c1
    · have := hprev i hi c1; omega
    · have := hafter i hi c1; omega
  | high e1 e2 hlt hall =>
    refine ⟨notin fun i hi e => by have := hall i hi; omega, hlt, by omega, fun _ => key (fun i hi _ => hall i hi) ?_⟩
    intro i hi c1
    omega
  | zero e1 e2 e3 =>
    subst e1 e3
    refine ⟨notin fun i hi e => ?_, hm, by omega, fun c => absurd rfl c⟩
    have h0 : 0 < c.length := by omega
    rw [getD_eq h0] at hne
    have := sorted_le hs (Nat.zero_le i) hi
    omega

/-- After the number of the channel at `l` the next one is tried at the next channel. -/
theorem try_next {max : Nat} {c : List Nat} {l : Nat} (hs : Sorted c) (hb : ∀ x ∈ c, x < max) (hl : l < c.length) :
    Try max c (nextId max c[l]) ((l + 1) % c.length) (l + 1) := by
  have hx := hb c[l] (List.getElem_mem hl)
  rcases Nat.lt_or_ge (l + 1) c.length with c1 | c1
  · rw [Nat.mod_eq_of_lt c1]
    have h1 := sorted_lt hs (show l < l + 1 by omega) c1
    have h2 := hb c[l + 1] (List.getElem_mem c1)
    have e : nextId max c[l] = c[l] + 1 := by
      unfold nextId
      rw [if_neg (by omega)]
    refine .mid rfl c1 (by omega) ?_ ?_
    · rw [getD_eq c1]
      omega
    · intro i hi hil
      have := sorted_le hs (show i ≤ l by omega) hl
      omega
  · have e : l + 1 = c.length := by omega
    rw [e, Nat.mod_self]
    unfold nextId
    split
    · exact .zero rfl rfl rfl
    · refine .high rfl rfl (by omega) ?_
      intro i hi
      have := sorted_le hs (show i ≤ l by omega) hl
      omega

theorem try_start {max last : Nat} {c : List Nat} (hs : Sorted c) (hb : ∀ x ∈ c, x < max) (hm : 1 ≤ max) (hne : c ≠ []) :
    Try max c (nextId max last) (place last c % c.length) (place last c) := by
  have hpos : 0 < c.length := List.length_pos_iff.mpr hne
  have hk : place last c ≤ c.length := by
    unfold place
    exact List.Sublist.length_le (List.takeWhile_sublist _)
  have hbefore : ∀ i (h : i < c.length), i < place last c → c[i] ≤ last := by
    intro i hi hik
    have hmem : (c.takeWhile (fun c => decide (c ≤ last)))[i]'hik ∈ c.takeWhile (fun c => decide (c ≤ last)) :=
      List.getElem_mem _
    have hp := List.all_eq_true.mp (List.all_takeWhile (p := fun c => decide (c ≤ last)) (l := c)) _ hmem
    have hpre : c.takeWhile (fun c => decide (c ≤ last)) <+: c := List.takeWhile_prefix _
    have e := hpre.getElem (i := i) hik
    simp only [e, decide_eq_true_eq] at hp
    exact hp
  have hat : ∀ h : place last c < c.length, last < c[place last c] := by
    intro h
    have hd : c = c.takeWhile (fun c => decide (c ≤ last)) ++ c.dropWhile (fun c => decide (c ≤ last)) :=
      (List.takeWhile_append_dropWhile).symm
    have hlen := congrArg List.length hd
    rw [List.length_append] at hlen
    have hnn : c.dropWhile (fun c => decide (c ≤ last)) ≠ [] := by
      intro e
      rw [e] at hlen
      unfold place at h
      simp at hlen
      omega
    have hh := List.head_dropWhile_not (fun c => decide (c ≤ last)) hnn
    have e2 : c[place last c]? = some ((c.dropWhile (fun c => decide (c ≤ last))).head hnn) := by
      conv => lhs; arg 1; rw [hd]
      rw [List.getElem?_append_right (by unfold place; omega)]
      have : place last c - (c.takeWhile (fun c => decide (c ≤ last))).length = 0 := by unfold place; omega
      rw [this, List.head_eq_getElem, List.getElem?_eq_getElem (List.length_pos_iff.mpr hnn)]
    rw [List.getElem?_eq_getElem h] at e2
    have e3 := Option.some.inj e2
    rw [← e3] at hh
    simpa using hh
  rcases Nat.lt_or_ge (place last c) c.length with c1 | c1
  · rw [Nat.mod_eq_of_lt c1]
    have h1 := hat c1
    have h2 := hb _ (List.getElem_mem c1)
    have e : nextId max last = last + 1 := by
      unfold nextId
      rw [if_neg (by omega)]
    refine .mid rfl c1 (by omega) ?_ ?_
    · rw [getD_eq c1]; omega
    · intro i hi hik
      have := hbefore i hi hik
      omega
  · have e : place last c = c.length := by omega
    rw [e, Nat.mod_self]
    unfold nextId
    split
    · exact .zero rfl rfl rfl
    · refine .high rfl rfl (by omega) ?_
      intro i hi
      have := hbefore i hi (by omega)
      omega

theorem Try.l_lt {max : Nat} {c : List Nat} {id l p : Nat} (h : Try max c id l p) (hne : c ≠ []) : l < c.length := by
  have hpos : 0 < c.length := List.length_pos_iff.mpr hne
  cases h <;> omega

/-- What the search finds in a list in number order. -/
theorem search_fresh {max : Nat} {c : List Nat} (hs : Sorted c) (hb : ∀ x ∈ c, x < max) (hm : 1 ≤ max) (hne : c ≠ []) :
    ∀ (n id l p : Nat), Try max c id l p → ∀ r, search max c n id l p = some r →
      r.1 ∉ c ∧ r.1 < max ∧ r.2 ≤ c.length ∧ (r.1 ≠ 0 → Sorted (c.take r.2 ++ r.1 :: c.drop r.2)) := by
  intro n
  induction n with
  | zero =>
    intro id l p ht r hr
    unfold search at hr
    split at hr
    · cases hr
      exact ht.fresh hs hm (by assumption)
    · simp at hr
  | succ n ih =>
    intro id l p ht r hr
    unfold search at hr
    split at hr
    · cases hr
      exact ht.fresh hs hm (by assumption)
    · rename_i hid
      have hl := ht.l_lt hne
      refine ih _ _ _ ?_ r hr
      have e : id = c[l] := by rw [← getD_eq hl]; omega
      rw [e]
      exact try_next hs hb hl

/-- The search fails only if every channel has the number after the one before it. -/
theorem search_none {max : Nat} {c : List Nat} (hne : c ≠ []) :
    ∀ (n id l p : Nat), l < c.length → search max c n id l p = none →
      id = c.getD l 0 ∧ ∀ j, j < n →
        c.getD ((l + j + 1) % c.length) 0 = nextId max (c.getD ((l + j) % c.length) 0) := by
  intro n
  induction n with
  | zero =>
    intro id l p hl hr
    unfold search at hr
    split at hr
    · simp at hr
    · exact ⟨by omega, by intro j hj; omega⟩
  | succ n ih =>
    intro id l p hl hr
    unfold search at hr
    split at hr
    · simp at hr
    · rename_i hid
      have hpos : 0 < c.length := List.length_pos_iff.mpr hne
      obtain ⟨h1, h2⟩ := ih _ _ _ (Nat.mod_lt _ hpos) hr
      have e : id = c.getD l 0 := by omega
      refine ⟨e, ?_⟩
      intro j hj
      cases j with
      | zero =>
        have e1 : (l + 0) % c.length = l := by rw [Nat.add_zero, Nat.mod_eq_of_lt hl]
        rw [e1, ← e, h1]
      | succ j =>
        have := h2 j (by omega)
        rw [Nat.add_assoc, Nat.mod_add_mod, Nat.mod_add_mod] at this
        rw [show l + (j + 1) + 1 = l + 1 + (j + 1) by omega, show l + (j + 1) = l + 1 + j by omega]
        exact this

/-- **C31, partial.**  In a mux whose channels are in number order (`max` numbers are allowed), a new channel is refused
only if all numbers are in use, and otherwise gets a number that is not in use. -/
theorem C31_new_partial (max : Nat) (hm : 1 ≤ max) (m : Ids) (hs : Sorted m.chans) (hb : ∀ x ∈ m.chans, x < max) :
    (m.new max = none ↔ ∀ x, x < max → x ∈ m.chans) ∧
    ∀ id m', m.new max = some (id, m') → id ∉ m.chans ∧ id < max ∧ (∃ p, p ≤ m.chans.length ∧
      m'.chans = m.chans.take p ++ id :: m.chans.drop p) ∧ (id ≠ 0 ∨ m.chans = [] → Sorted m'.chans) := by
  obtain ⟨last, c⟩ := m
  simp only at hs hb
  cases c with
  | nil =>
    refine ⟨by simp [Ids.new]; exact ⟨0, hm⟩, ?_⟩
    intro id m' h
    simp only [Ids.new, Option.some.injEq, Prod.mk.injEq] at h
    obtain ⟨rfl, rfl⟩ := h
    exact ⟨by simp, hm, ⟨0, by simp, rfl⟩, fun _ => List.pairwise_singleton _ _⟩
  | cons x xs =>
    have hne : x :: xs ≠ [] := by simp
    generalize hc : x :: xs = c at *
    have hnew : Ids.new ⟨last, c⟩ max =
        match search max c c.length (nextId max last) (place last c % c.length) (place last c) with
        | none => none
        | some (id, p) => some (id, ⟨id, c.take p ++ id :: c.drop p⟩) := by
      subst hc
      rfl
    have htry := try_start (last := last) hs hb hm hne
    have hpos : 0 < c.length := List.length_pos_iff.mpr hne
    rw [hnew]
    cases hr : search max c c.length (nextId max last) (place last c % c.length) (place last c) with
    | some r =>
      obtain ⟨id, p⟩ := r
      obtain ⟨f1, f2, f3, f4⟩ := search_fresh hs hb hm hne _ _ _ _ htry _ hr
      refine ⟨⟨by simp, fun h => absurd (h id f2) f1⟩, ?_⟩
      intro id' m' h
      cases h
      refine ⟨f1, f2, ⟨p, f3, rfl⟩, ?_⟩
      rintro (h | h)
      · exact f4 h
      · exact absurd h hne
    | none =>
      obtain ⟨_, h2⟩ := search_none hne _ _ _ _ (htry.l_lt hne) hr
      refine ⟨⟨fun _ => ?_, fun _ => rfl⟩, by simp⟩
      -- every channel has the number after the one before it, in a circle
      have hcyc : ∀ i, i < c.length → c.getD ((i + 1) % c.length) 0 = nextId max (c.getD i 0) := by
        intro i hi
        generalize hl : place last c % c.length = l at *
        have hll : l < c.length := htry.l_lt hne
        rcases Nat.lt_or_ge i l with c1 | c1
        · have := h2 (i + c.length - l) (by omega)
          rw [show l + (i + c.length - l) + 1 = (i + 1) + c.length by omega,
            show l + (i + c.length - l) = i + c.length by omega, Nat.add_mod_right, Nat.add_mod_right,
            Nat.mod_eq_of_lt hi] at this
          exact this
        · have := h2 (i - l) (by omega)
          rw [show l + (i - l) + 1 = i + 1 by omega, show l + (i - l) = i by omega, Nat.mod_eq_of_lt hi] at this
          exact this
      have hval : ∀ i (h : i < c.length), c[i] = i := by
        have h0 : c[0] = 0 := by
          have := hcyc (c.length - 1) (by omega)
          rw [show c.length - 1 + 1 = c.length by omega, Nat.mod_self, getD_eq hpos, getD_eq (by omega)] at this
          unfold nextId at this
          split at this
          · exact this
          · have := sorted_le hs (Nat.zero_le (c.length - 1)) (by omega)
            omega
        intro i
        induction i with
        | zero => intro _; exact h0
        | succ i ih =>
          intro h
          have := hcyc i (by omega)
          rw [Nat.mod_eq_of_lt h, getD_eq h, getD_eq (by omega), ih (by omega)] at this
          have h3 := sorted_lt hs (show i < i + 1 by omega) h
          unfold nextId at this
          split at this <;> omega
      have hfull : c.length ≥ max := by
        have := hcyc (c.length - 1) (by omega)
        rw [show c.length - 1 + 1 = c.length by omega, Nat.mod_self, getD_eq hpos, getD_eq (by omega), hval, hval] at this
        unfold nextId at this
        split at this <;> omega
      intro x hx
      rw [← hval x (by omega)]
      exact List.getElem_mem _

/-- **C31, partial.**  As long as the number 0 is not given out again, the channels of a mux are in number order, so all
numbers in use are distinct, for every history of new and removed channels. -/
theorem C31_partial (max : Nat) (hm : 1 ≤ max) (last : Nat) (ops : List Op)
    (h0 : ∀ pre, pre <+: ops → ∀ m', ((Ids.mk last []).run max pre).chans ≠ [] →
      ((Ids.mk last []).run max pre).new max ≠ some (0, m')) :
    Sorted ((Ids.mk last []).run max ops).chans ∧ ((Ids.mk last []).run max ops).chans.Nodup ∧
      ∀ x ∈ ((Ids.mk last []).run max ops).chans, x < max := by
  have hrun : ∀ (m : Ids) (ops : List Op) (op : Op), m.run max (ops ++ [op]) = (m.run max ops).step max op := by
    intro m ops op
    simp [Ids.run, List.foldl_append]
  have main : ∀ n, n ≤ ops.length → Sorted ((Ids.mk last []).run max (ops.take n)).chans ∧
      ∀ x ∈ ((Ids.mk last []).run max (ops.take n)).chans, x < max := by
    intro n
    induction n with
    | zero => exact fun _ => ⟨List.Pairwise.nil, by simp [Ids.run]⟩
    | succ n ih =>
      intro hn
      obtain ⟨hs, hb⟩ := ih (by omega)
      rw [List.take_succ_eq_append_getElem (by omega), hrun]
      have h00 := h0 (ops.take n) (List.take_prefix _ _)
      generalize (Ids.mk last []).run max (ops.take n) = m at *
      cases ops[n] with
      | remove i =>
        simp only [Ids.step, Ids.remove]
        exact ⟨hs.sublist (List.eraseIdx_sublist _ _), fun x hx => hb x (List.mem_of_mem_eraseIdx hx)⟩
      | new =>
        simp only [Ids.step]
        cases hnew : m.new max with
        | none => exact ⟨hs, hb⟩
        | some r =>
          obtain ⟨id, m'⟩ := r
          obtain ⟨_, h⟩ := C31_new_partial max hm m hs hb
          obtain ⟨f1, f2, ⟨p, hp, f3⟩, f4⟩ := h id m' hnew
          refine ⟨f4 ?_, ?_⟩
          · by_cases c : m.chans = []
            · exact Or.inr c
            · left
              intro e
              subst e
              exact h00 m' c hnew
          · intro x hx
            rw [f3] at hx
            rcases List.mem_append.mp hx with hx | hx
            · exact hb x (List.mem_of_mem_take hx)
            · rcases List.mem_cons.mp hx with rfl | hx
              · exact f2
              · exact hb x (List.mem_of_mem_drop hx)
  have := main ops.length (Nat.le_refl _)
  rw [List.take_length] at this
  exact ⟨this.1, this.1.imp (fun h => Nat.ne_of_lt h), this.2⟩

/-- Numbers 0, 1, 2, 3; then 1 and 2 are removed and two more channels get 4 and 5. -/
example : ((Ids.mk 0 []).run 8 [.new, .new, .new, .new, .remove 1, .remove 1, .new, .new]).chans = [0, 3, 4, 5] := by
  decide

/-- **C31 fails** after the numbers wrapped: the number 0 is given out at the end of the list, the list is no longer in
number order, and later 0 is given out a second time although it is in use. -/
theorem C31_violated : ∃ ops, ¬ ((Ids.mk 0 []).run 3 ops).chans.Nodup :=
  ⟨[.new, .new, .new, .remove 0, .new, .remove 1, .new, .new], by decide⟩

end Gensio.MuxId
