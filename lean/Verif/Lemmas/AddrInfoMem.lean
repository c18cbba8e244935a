import Verif.Lemmas.AddrInfo

namespace Gensio.AddrInfo

/-- How many of the items point to chain `k`. -/
def cnt (k : Nat) (all : List Item) : Nat := all.countP fun it => it.chain == k

/-- All pointers are good and the counts are right; `all` are the items of all addresses. -/
structure Ok (cs : List Chain) (all : List Item) : Prop where
  good : ∀ it ∈ all, ∃ c, chainOf cs it = some c ∧ (it.only = true → c.rc = none)
  refs : ∀ (k : Nat) (c : Chain), cs[k]? = some c → c.live = true →
    (c.rc = none → cnt k all = 1) ∧ (∀ n, c.rc = some n → n = cnt k all ∧ 1 ≤ n)

/-- What is seen through an item: the cells, whether they are from `getaddrinfo`, whether they may be changed. -/
def sinfo (cs : List Chain) (it : Item) : Option (List Sock × Bool × Bool) :=
  (chainOf cs it).map fun c => (c.cells, c.gai, c.gai || c.rc.isNone)

theorem Ok.perm {cs : List Chain} {l l' : List Item} (h : Ok cs l) (p : l.Perm l') : Ok cs l' := by
  refine ⟨fun it hi => h.good it (p.mem_iff.2 hi), fun k c e hl => ?_⟩
  have : cnt k l' = cnt k l := (p.countP_eq _).symm
  rw [this]
  exact h.refs k c e hl

theorem chainOf_eq {cs : List Chain} {it : Item} {c : Chain} (h : chainOf cs it = some c) :
    cs[it.chain]? = some c ∧ c.live = true ∧ it.gone = c.gone := by
  unfold chainOf at h
  split at h
  · rename_i c' e
    split at h
    · rename_i hc
      cases h
      exact ⟨e, hc.1, hc.2⟩
    · cases h
  · cases h

theorem chainOf_of {cs : List Chain} {it : Item} {c : Chain} (e : cs[it.chain]? = some c)
    (hl : c.live = true) (hg : it.gone = c.gone) : chainOf cs it = some c := by
  unfold chainOf
  rw [e]
  simp [hl, hg]

theorem lt_of_get {α : Type} {l : List α} {k : Nat} {x : α} (h : l[k]? = some x) : k < l.length := by
  exact (List.getElem?_eq_some_iff.1 h).1

theorem get_set_self {α : Type} {l : List α} {k : Nat} {x y : α} (h : l[k]? = some x) :
    (l.set k y)[k]? = some y := by
  rw [List.getElem?_set_self (lt_of_get h)]

theorem cnt_cons (k : Nat) (it : Item) (all : List Item) :
    cnt k (it :: all) = cnt k all + if it.chain = k then 1 else 0 := by
  unfold cnt
  rw [List.countP_cons]
  simp

theorem cnt_append (k : Nat) (a b : List Item) : cnt k (a ++ b) = cnt k a + cnt k b :=
  List.countP_append

theorem cnt_pos {it : Item} {all : List Item} (h : it ∈ all) : 0 < cnt it.chain all :=
  List.countP_pos_iff.2 ⟨it, h, by simp⟩

theorem chainOf_set_ne (cs : List Chain) (it : Item) (k : Nat) (c : Chain) (h : it.chain ≠ k) :
    chainOf (cs.set k c) it = chainOf cs it := by
  unfold chainOf
  rw [List.getElem?_set_ne (fun e => h e.symm)]

theorem sinfo_set_ne (cs : List Chain) (it : Item) (k : Nat) (c : Chain) (h : it.chain ≠ k) :
    sinfo (cs.set k c) it = sinfo cs it := by
  unfold sinfo
  rw [chainOf_set_ne cs it k c h]

theorem cleanup_ok {cs : List Chain} {it : Item} {all : List Item} (h : Ok cs (it :: all)) :
    ∃ cs', cleanup cs it = some cs' ∧ Ok cs' all ∧ cs'.length = cs.length ∧
      ∀ x ∈ all, sinfo cs' x = sinfo cs x := by
  obtain ⟨c, hc, ho⟩ := h.good it (List.mem_cons_self ..)
  obtain ⟨e, hl, hg⟩ := chainOf_eq hc
  have hr := h.refs it.chain c e hl
  rw [cnt_cons, if_pos rfl] at hr
  have hnl : (!c.live) = false := by simp [hl]
  -- the chain is freed
  have free : cnt it.chain all = 0 →
      Ok (cs.set it.chain { c with live := false }) all ∧
      ∀ x ∈ all, sinfo (cs.set it.chain { c with live := false }) x = sinfo cs x := by
    intro h0
    have hne : ∀ x ∈ all, x.chain ≠ it.chain := by
      intro x hx e'
      have := cnt_pos hx
      rw [e'] at this
      omega
    refine ⟨⟨?_, ?_⟩, ?_⟩
    · intro x hx
      obtain ⟨c', h1, h2⟩ := h.good x (List.mem_cons_of_mem _ hx)
      refine ⟨c', ?_, h2⟩
      rw [chainOf_set_ne _ _ _ _ (hne x hx)]
      exact h1
    · intro k c' e' hl'
      by_cases hk : k = it.chain
      · subst hk
        rw [get_set_self e] at e'
        cases e'
        cases hl'
      · rw [List.getElem?_set_ne (fun e => hk e.symm)] at e'
        have := h.refs k c' e' hl'
        rw [cnt_cons, if_neg (fun e => hk e.symm)] at this
        exact this
    · intro x hx
      exact sinfo_set_ne _ _ _ _ (hne x hx)
  unfold cleanup
  rw [e]
  simp only [hnl, Bool.false_eq_true, if_false]
  have hgg : ¬ (it.gone ≠ c.gone) := by simp [hg]
  cases hrc : c.rc with
  | none =>
    have := hr.1 hrc
    have f := free (by omega)
    rw [hrc] at f
    simp only [hgg, if_false]
    exact ⟨_, rfl, f.1, by simp, f.2⟩
  | some n =>
    obtain ⟨h1, h2⟩ := hr.2 n hrc
    match n, h1, h2, hrc with
    | 1, h1, h2, hrc =>
      have f := free (by omega)
      rw [hrc] at f
      simp only [hgg, if_false]
      exact ⟨_, rfl, f.1, by simp, f.2⟩
    | n + 2, h1, h2, hrc =>
      refine ⟨_, rfl, ⟨?_, ?_⟩, by simp, ?_⟩
      · intro x hx
        obtain ⟨c', h3, h4⟩ := h.good x (List.mem_cons_of_mem _ hx)
        by_cases hk : x.chain = it.chain
        · obtain ⟨e', hl', hg'⟩ := chainOf_eq h3
          rw [hk, e] at e'
          cases e'
          refine ⟨{ c with rc := some (n + 1) }, ?_, ?_⟩
          · apply chainOf_of
            · rw [hk, get_set_self e]
            · exact hl
            · exact hg'
          · intro ho'
            have := h4 ho'
            rw [hrc] at this
            cases this
        · exact ⟨c', by rw [chainOf_set_ne _ _ _ _ hk]; exact h3, h4⟩
      · intro k c' e' hl'
        by_cases hk : k = it.chain
        · subst hk
          rw [get_set_self e] at e'
          cases e'
          refine ⟨fun h => (nomatch h), fun m hm => ?_⟩
          have hm : n + 1 = m := by simpa using hm
          exact ⟨by omega, by omega⟩
        · rw [List.getElem?_set_ne (fun e => hk e.symm)] at e'
          have := h.refs k c' e' hl'
          rw [cnt_cons, if_neg (fun e => hk e.symm)] at this
          exact this
      · intro x hx
        by_cases hk : x.chain = it.chain
        · obtain ⟨c', h3, h4⟩ := h.good x (List.mem_cons_of_mem _ hx)
          obtain ⟨e', hl', hg'⟩ := chainOf_eq h3
          rw [hk, e] at e'
          cases e'
          have : chainOf (cs.set it.chain { c with rc := some (n + 1) }) x =
              some { c with rc := some (n + 1) } :=
            chainOf_of (by rw [hk, get_set_self e]) hl hg'
          unfold sinfo
          rw [this, h3]
          simp [hrc]
        · exact sinfo_set_ne _ _ _ _ hk

theorem freeItems_ok {cs : List Chain} {its all : List Item} (h : Ok cs (its ++ all)) :
    ∃ cs', freeItems cs its = some cs' ∧ Ok cs' all ∧ cs'.length = cs.length ∧
      ∀ x ∈ all, sinfo cs' x = sinfo cs x := by
  induction its generalizing cs with
  | nil => exact ⟨cs, rfl, h, rfl, fun _ _ => rfl⟩
  | cons it rest ih =>
    obtain ⟨cs1, e1, h1, l1, s1⟩ := cleanup_ok (by simpa using h)
    obtain ⟨cs2, e2, h2, l2, s2⟩ := ih h1
    refine ⟨cs2, ?_, h2, by omega, ?_⟩
    · simp only [freeItems, e1, Option.bind_some, e2]
    · intro x hx
      rw [s2 x hx, s1 x (List.mem_append_right _ hx)]

theorem nested_of_shape {cs : List Chain} {its : List Item} {sh : List (List Sock × Bool × Bool)}
    (h : its.map (sinfo cs) = sh.map some) : nested cs its = some (sh.map (·.1)) := by
  induction its generalizing sh with
  | nil =>
    cases sh with
    | nil => rfl
    | cons => simp at h
  | cons it rest ih =>
    cases sh with
    | nil => simp at h
    | cons s sh =>
      simp only [List.map_cons, List.cons.injEq] at h
      unfold nested
      have h1 := h.1
      unfold sinfo at h1
      rw [Option.map_eq_some_iff] at h1
      obtain ⟨c, hc, rfl⟩ := h1
      rw [hc]
      simp [ih h.2]

theorem shape_of_ok {cs : List Chain} {its all : List Item} (h : Ok cs all) (hs : ∀ x ∈ its, x ∈ all) :
    ∃ sh : List (List Sock × Bool × Bool), its.map (sinfo cs) = sh.map some := by
  induction its with
  | nil => exact ⟨[], rfl⟩
  | cons it rest ih =>
    obtain ⟨sh, e⟩ := ih fun x hx => hs x (List.mem_cons_of_mem _ hx)
    obtain ⟨c, hc, _⟩ := h.good it (hs it (List.mem_cons_self ..))
    refine ⟨(c.cells, c.gai, c.gai || c.rc.isNone) :: sh, ?_⟩
    simp only [List.map_cons, e]
    congr 1
    unfold sinfo
    rw [hc]
    rfl

/-- The cells with the mark of their item whether they may be changed. -/
def tags (s : List Sock × Bool × Bool) : List (Sock × Bool) := s.1.map (·, s.2.2)

/-- Of two equal addresses the second may be deleted. -/
def Fine (l : List (Sock × Bool)) : Prop :=
  l.Pairwise fun x y => equal x.1 y.1 true 0 = true → y.2 = true

/-- Restarts that can still come. -/
def measure (sh : List (List Sock × Bool × Bool)) : Nat :=
  (sh.map (·.1)).flatten.length + sh.countP fun s => s.2.1

theorem map_split {α β : Type} {f : α → Option β} {its : List α} {p : List β} {s : β} {q : List β}
    (h : its.map f = (p ++ s :: q).map some) :
    ∃ a x b, its = a ++ x :: b ∧ a.length = p.length ∧ a.map f = p.map some ∧ f x = some s ∧
      b.map f = q.map some := by
  induction p generalizing its with
  | nil =>
    cases its with
    | nil => simp at h
    | cons x xs =>
      simp only [List.nil_append, List.map_cons, List.cons.injEq] at h
      exact ⟨[], x, xs, rfl, rfl, rfl, h.1, h.2⟩
  | cons y p ih =>
    cases its with
    | nil => simp at h
    | cons x xs =>
      simp only [List.cons_append, List.map_cons, List.cons.injEq] at h
      obtain ⟨a, x', b, e1, e2, e3, e4, e5⟩ := ih h.2
      exact ⟨x :: a, x', b, by rw [e1]; rfl, by simp [e2], by simp [h.1, e3], e4, e5⟩

theorem map_sinfo_congr {cs cs' : List Chain} {l : List Item} (h : ∀ x ∈ l, sinfo cs' x = sinfo cs x) :
    l.map (sinfo cs') = l.map (sinfo cs) := List.map_congr_left h

theorem chainOf_append {cs : List Chain} {it : Item} (c : List Chain) (h : it.chain < cs.length) :
    chainOf (cs ++ c) it = chainOf cs it := by
  unfold chainOf
  rw [List.getElem?_append_left h]

theorem Ok.lt {cs : List Chain} {all : List Item} (h : Ok cs all) {it : Item} (hi : it ∈ all) :
    it.chain < cs.length := by
  obtain ⟨c, hc, _⟩ := h.good it hi
  exact lt_of_get (chainOf_eq hc).1

/-- A new chain with one item that points to it. -/
theorem Ok.push {cs : List Chain} {all : List Item} (h : Ok cs all) (c : Chain) (it : Item)
    (hc : c.live = true ∧ c.rc = none ∧ it.chain = cs.length ∧ it.gone = c.gone) :
    Ok (cs ++ [c]) (it :: all) := by
  obtain ⟨h1, h2, h3, h4⟩ := hc
  refine ⟨?_, ?_⟩
  · intro x hx
    rcases List.mem_cons.1 hx with rfl | hx
    · refine ⟨c, chainOf_of ?_ h1 h4, fun _ => h2⟩
      rw [h3]; simp
    · obtain ⟨c', e, r⟩ := h.good x hx
      exact ⟨c', by rw [chainOf_append _ (h.lt hx)]; exact e, r⟩
  · intro k c' e hl
    rw [cnt_cons]
    by_cases hk : k = cs.length
    · subst hk
      simp only [List.getElem?_concat_length, Option.some.injEq] at e
      subst e
      have h0 : cnt cs.length all = 0 := by
        unfold cnt
        rw [List.countP_eq_zero]
        intro x hx
        have := h.lt hx
        simp only [beq_iff_eq]
        omega
      rw [if_pos h3, h0]
      refine ⟨fun _ => rfl, fun n hn => ?_⟩
      rw [h2] at hn
      cases hn
    · have hlt : k < cs.length := by
        have := lt_of_get e
        simp only [List.length_append, List.length_singleton] at this
        omega
      rw [List.getElem?_append_left hlt] at e
      rw [if_neg (by rw [h3]; exact fun e => hk e.symm)]
      exact h.refs k c' e hl

theorem sinfo_append {cs : List Chain} {it : Item} (c : List Chain) (h : it.chain < cs.length) :
    sinfo (cs ++ c) it = sinfo cs it := by
  unfold sinfo
  rw [chainOf_append c h]

theorem private_ne {cs : List Chain} {it : Item} {all : List Item} {ch : Chain} (h : Ok cs (it :: all))
    (hc : chainOf cs it = some ch) (hr : ch.rc = none) : ∀ x ∈ all, x.chain ≠ it.chain := by
  obtain ⟨e, hl, _⟩ := chainOf_eq hc
  have := (h.refs it.chain ch e hl).1 hr
  rw [cnt_cons, if_pos rfl] at this
  intro x hx e'
  have h2 := cnt_pos hx
  rw [e'] at h2
  omega

/-- A chain with one item is changed. -/
theorem Ok.modify {cs : List Chain} {it it' : Item} {all : List Item} {ch ch' : Chain}
    (h : Ok cs (it :: all)) (hc : chainOf cs it = some ch) (hr : ch.rc = none)
    (hc' : ch'.live = true ∧ ch'.rc = none ∧ it'.chain = it.chain ∧ it'.gone = ch'.gone) :
    Ok (cs.set it.chain ch') (it' :: all) ∧ ∀ x ∈ all, sinfo (cs.set it.chain ch') x = sinfo cs x := by
  have hne := private_ne h hc hr
  obtain ⟨e, hl, _⟩ := chainOf_eq hc
  obtain ⟨h1, h2, h3, h4⟩ := hc'
  refine ⟨⟨?_, ?_⟩, fun x hx => sinfo_set_ne _ _ _ _ (hne x hx)⟩
  · intro x hx
    rcases List.mem_cons.1 hx with rfl | hx
    · exact ⟨ch', chainOf_of (by rw [h3, get_set_self e]) h1 h4, fun _ => h2⟩
    · obtain ⟨c', h5, h6⟩ := h.good x (List.mem_cons_of_mem _ hx)
      exact ⟨c', by rw [chainOf_set_ne _ _ _ _ (hne x hx)]; exact h5, h6⟩
  · intro k c' e' hl'
    by_cases hk : k = it.chain
    · subst hk
      rw [get_set_self e] at e'
      cases e'
      have := h.refs it.chain ch e hl
      rw [cnt_cons, if_pos rfl] at this
      rw [cnt_cons, if_pos h3]
      refine ⟨fun _ => this.1 hr, fun n hn => ?_⟩
      rw [h2] at hn
      cases hn
    · rw [List.getElem?_set_ne (fun e => hk e.symm)] at e'
      have := h.refs k c' e' hl'
      rw [cnt_cons, if_neg (fun e => hk e.symm)] at this
      rw [cnt_cons, h3, if_neg (fun e => hk e.symm)]
      exact this

/-- A chain with one item is dropped, with the item. -/
theorem Ok.drop {cs : List Chain} {it : Item} {all : List Item} {ch ch' : Chain}
    (h : Ok cs (it :: all)) (hc : chainOf cs it = some ch) (hr : ch.rc = none) (hd : ch'.live = false) :
    Ok (cs.set it.chain ch') all ∧ ∀ x ∈ all, sinfo (cs.set it.chain ch') x = sinfo cs x := by
  have hne := private_ne h hc hr
  obtain ⟨e, hl, _⟩ := chainOf_eq hc
  refine ⟨⟨?_, ?_⟩, fun x hx => sinfo_set_ne _ _ _ _ (hne x hx)⟩
  · intro x hx
    obtain ⟨c', h5, h6⟩ := h.good x (List.mem_cons_of_mem _ hx)
    exact ⟨c', by rw [chainOf_set_ne _ _ _ _ (hne x hx)]; exact h5, h6⟩
  · intro k c' e' hl'
    by_cases hk : k = it.chain
    · subst hk
      rw [get_set_self e] at e'
      cases e'
      rw [hd] at hl'
      cases hl'
    · rw [List.getElem?_set_ne (fun e => hk e.symm)] at e'
      have := h.refs k c' e' hl'
      rw [cnt_cons, if_neg (fun e => hk e.symm)] at this
      exact this

theorem perm_mid (a b rest : List Item) (it : Item) :
    ((a ++ it :: b) ++ rest).Perm (it :: (a ++ b ++ rest)) := by
  have h1 : (a ++ it :: b).Perm (it :: (a ++ b)) := List.perm_middle
  exact h1.append_right rest

theorem erase_ne_nil {α : Type} {l : List α} {c : Nat} (hc : c < l.length) (h0 : c ≠ 0) :
    l.eraseIdx c ≠ [] := by
  intro e
  have := congrArg List.length e
  rw [List.length_eraseIdx_of_lt hc] at this
  simp at this
  omega

theorem erase_zero {α : Type} (l : List α) : l.eraseIdx 0 = l.tail := by
  cases l <;> rfl

theorem delCell_ok {cs : List Chain} {a b rest : List Item} {it : Item} {ch : Chain} {c : Nat}
    (h : Ok cs ((a ++ it :: b) ++ rest)) (hc : chainOf cs it = some ch) (hr : ch.rc = none)
    (hlt : c < ch.cells.length) :
    ∃ cs' its', delCell cs (a ++ it :: b) a.length c = some (cs', its') ∧ Ok cs' (its' ++ rest) ∧
      cs'.length = cs.length ∧ (∀ x ∈ a ++ b ++ rest, sinfo cs' x = sinfo cs x) ∧
      ((ch.cells.eraseIdx c = [] ∧ its' = a ++ b) ∨
        ∃ it', its' = a ++ it' :: b ∧ ch.cells.eraseIdx c ≠ [] ∧
          sinfo cs' it' = some (ch.cells.eraseIdx c, ch.gai, true)) := by
  have h' := h.perm (perm_mid a b rest it)
  obtain ⟨e, hl, hg⟩ := chainOf_eq hc
  have e1 : (a ++ it :: b)[a.length]? = some it := by simp
  unfold delCell
  rw [e1]
  simp only [hc]
  by_cases h0 : c = 0
  · subst h0
    rw [erase_zero]
    simp only [if_true]
    split
    · rename_i hn
      have := h'.drop (ch' := { ch with cells := ch.cells.tail, gone := ch.gone + 1, live := ch.rc.isSome })
        hc hr (by simp [hr])
      refine ⟨_, _, rfl, ?_, by simp, this.2, Or.inl ⟨hn, ?_⟩⟩
      · have e2 : (a ++ it :: b).eraseIdx a.length = a ++ b := by
          rw [List.eraseIdx_append_of_length_le (Nat.le_refl _)]
          simp
        rw [e2]
        exact this.1
      · rw [List.eraseIdx_append_of_length_le (Nat.le_refl _)]
        simp
    · rename_i hn
      have := h'.modify (it' := { it with gone := it.gone + 1 })
        (ch' := { ch with cells := ch.cells.tail, gone := ch.gone + 1 }) hc hr
        ⟨hl, hr, rfl, by simp [hg]⟩
      have e2 : (a ++ it :: b).set a.length { it with gone := it.gone + 1 } =
          a ++ { it with gone := it.gone + 1 } :: b := by simp
      refine ⟨_, _, rfl, ?_, by simp, this.2, Or.inr ⟨_, e2, hn, ?_⟩⟩
      · rw [e2]
        exact this.1.perm (perm_mid a b rest _).symm
      · unfold sinfo
        rw [chainOf_of (c := { ch with cells := ch.cells.tail, gone := ch.gone + 1 })
          (by exact get_set_self e) hl (by simp [hg])]
        simp [hr]
  · simp only [h0, if_false]
    have := h'.modify (it' := it) (ch' := { ch with cells := ch.cells.eraseIdx c }) hc hr
        ⟨hl, hr, rfl, hg⟩
    refine ⟨_, _, rfl, this.1.perm (perm_mid a b rest _).symm, by simp, this.2,
      Or.inr ⟨it, rfl, erase_ne_nil hlt h0, ?_⟩⟩
    unfold sinfo
    rw [chainOf_of (c := { ch with cells := ch.cells.eraseIdx c }) (by exact get_set_self e) hl hg]
    simp [hr]

theorem sinfo_flag {cs : List Chain} {it : Item} {s : List Sock × Bool × Bool} (h : sinfo cs it = some s) :
    ∃ ch, chainOf cs it = some ch ∧ ch.cells = s.1 ∧ ch.gai = s.2.1 ∧
      s.2.2 = (ch.gai || ch.rc.isNone) := by
  unfold sinfo at h
  rw [Option.map_eq_some_iff] at h
  obtain ⟨ch, h1, rfl⟩ := h
  exact ⟨ch, h1, rfl, rfl, rfl⟩

theorem map_fst_tags (sh : List (List Sock × Bool × Bool)) :
    (sh.map tags).map (List.map Prod.fst) = sh.map (·.1) := by
  rw [List.map_map]
  apply List.map_congr_left
  intro s _
  simp [tags, Function.comp_def]

theorem visit_tags (sh : List (List Sock × Bool × Bool)) :
    (visit (sh.map tags)).map Prod.fst = visit (sh.map (·.1)) := by
  rw [← map_fst_tags, visit_map]

theorem measure_split (p q : List (List Sock × Bool × Bool)) (s : List Sock × Bool × Bool) :
    measure (p ++ s :: q) = measure (p ++ q) + s.1.length + if s.2.1 then 1 else 0 := by
  simp only [measure, List.map_append, List.map_cons, List.flatten_append, List.flatten_cons,
    List.length_append, List.countP_append, List.countP_cons]
  omega

theorem Fine.erase {l : List (Sock × Bool)} (h : Fine l) (j : Nat) : Fine (l.eraseIdx j) :=
  List.Pairwise.sublist (List.eraseIdx_sublist l j) h

theorem eraseIdx_map' {α β : Type} (f : α → β) (l : List α) (k : Nat) :
    (l.map f).eraseIdx k = (l.eraseIdx k).map f := by
  induction l generalizing k with
  | nil => rfl
  | cons x xs ih =>
    cases k with
    | zero => rfl
    | succ k => simp [ih]

theorem dedup_ok (fuel : Nat) (al : List Bool) (cs : List Chain) (its rest : List Item)
    (sh : List (List Sock × Bool × Bool)) (h : Ok cs (its ++ rest))
    (hs : its.map (sinfo cs) = sh.map some) (hf : Fine (visit (sh.map tags)))
    (hm : measure sh < fuel) :
    ∃ cs' its' ok, dedup fuel al cs its = some (cs', its', ok) ∧ Ok cs' (its' ++ rest) ∧
      cs.length ≤ cs'.length ∧ (∀ x ∈ rest, sinfo cs' x = sinfo cs x) ∧
      ((∀ b ∈ al, b = true) → ok = true) ∧
      (ok = true → ∃ sh' : List (List Sock × Bool × Bool), its'.map (sinfo cs') = sh'.map some ∧
        (visit (sh'.map (·.1))).Pairwise (fun x y => equal x y true 0 = false) ∧
        (visit (sh'.map (·.1))).Sublist (visit (sh.map (·.1))) ∧
        ((∀ x ∈ visit (sh.map (·.1)), Std x) →
          visit (sh'.map (·.1)) = firsts [] (visit (sh.map (·.1)))) ∧
        ((∀ s ∈ sh, s.1 ≠ []) → ∀ s ∈ sh', s.1 ≠ [])) := by
  induction fuel generalizing al cs its sh with
  | zero => omega
  | succ fuel ih =>
    unfold dedup
    rw [nested_of_shape hs]
    simp only []
    cases hd : firstDup (visit (sh.map (·.1))) with
    | none =>
      have hn := firstDup_none _ hd
      exact ⟨cs, its, true, rfl, h, Nat.le_refl _, fun _ _ => rfl, fun _ => rfl, fun _ =>
        ⟨sh, hs, hn, List.Sublist.refl _, fun _ => (firsts_of_nodup _ [] hn (by simp)).symm,
          fun x => x⟩⟩
    | some ij =>
      obtain ⟨i, j⟩ := ij
      simp only []
      obtain ⟨hij, x, y, hx, hy, hxy⟩ := firstDup_some _ i j hd
      have hjlt := lt_of_get hy
      have hloc : locate (sh.map (·.1)) j = locate (sh.map tags) j := by
        rw [← map_fst_tags, locate_map]
      have hjt : j < (visit (sh.map tags)).length := by
        have := congrArg List.length (visit_tags sh)
        rw [List.length_map] at this
        omega
      obtain ⟨P, l, Q, e1, e2, e3, e4, e5⟩ := locate_spec (sh.map tags) j hjt
      obtain ⟨p, r, e6, e7, e8⟩ := List.map_eq_append_iff.1 e1
      obtain ⟨s, q, e9, e10, e11⟩ := List.map_eq_cons_iff.1 e8
      subst e9 e6
      rw [hloc]
      generalize (locate ((p ++ s :: q).map tags) j).2 = c at *
      generalize (locate ((p ++ s :: q).map tags) j).1 = k at *
      have hk : p.length = k := by rw [← e2, ← e7]; simp
      subst hk
      have hcs : c < s.1.length := by
        rw [← e10] at e3
        simpa [tags] using e3
      -- the second of the two may be changed
      have hflag : s.2.2 = true := by
        have h1 := (List.pairwise_iff_getElem.1 hf) i j (by omega) hjt hij
        have h2 : ((visit ((p ++ s :: q).map tags))[i]'(by omega)).1 = x := by
          have := hx
          rw [← visit_tags, List.getElem?_map, List.getElem?_eq_getElem (by omega)] at this
          simpa using this
        have h3 : ((visit ((p ++ s :: q).map tags))[j]'hjt).1 = y := by
          have := hy
          rw [← visit_tags, List.getElem?_map, List.getElem?_eq_getElem hjt] at this
          simpa using this
        have h4 := h1 (by rw [h2, h3]; exact hxy)
        have h5 : (visit ((p ++ s :: q).map tags))[j]? = l[c]? := by
          have hl : l ≠ [] := by intro e; rw [e] at e3; simp at e3
          rw [e1, visit_full P _ e4, visit_cons _ _ hl, e5,
            List.getElem?_append_right (by omega)]
          have : P.flatten.length + c - P.flatten.length = c := by omega
          rw [this, List.getElem?_append_left e3]
        rw [List.getElem?_eq_getElem hjt, ← e10] at h5
        simp only [tags, List.getElem?_map, List.getElem?_eq_getElem hcs, Option.map_some,
          Option.some.injEq] at h5
        have h6 := congrArg Prod.snd h5
        rw [h4] at h6
        exact h6.symm
      obtain ⟨a, it, b, f1, f2, f3, f4, f5⟩ := map_split hs
      subst f1
      have hit : (a ++ it :: b)[p.length]? = some it := by rw [← f2]; simp
      rw [hit]
      simp only []
      obtain ⟨ch, g1, g2, g3, g4⟩ := sinfo_flag f4
      rw [g1]
      simp only []
      obtain ⟨ge, gl, gg⟩ := chainOf_eq g1
      by_cases hgai : ch.gai = true
      · rw [if_pos hgai]
        have hs1 : s.2.1 = true := by rw [← g3]; exact hgai
        by_cases hal : (take al).1 = true
        · have hnal : (!(take al).1) = false := by rw [hal]; rfl
          simp only [hnal, Bool.false_eq_true, if_false]
          have h' := h.perm (perm_mid a b rest it)
          obtain ⟨cs1, c1, c2, c3, c4⟩ := cleanup_ok h'
          rw [c1]
          simp only []
          have hset : (a ++ it :: b).set p.length { it with chain := cs1.length, gone := 0 } =
              a ++ { it with chain := cs1.length, gone := 0 } :: b := by rw [← f2]; simp
          rw [hset]
          have k1 := c2.push { cells := ch.cells } { it with chain := cs1.length, gone := 0 }
            ⟨rfl, rfl, rfl, rfl⟩
          have k2 : ∀ x ∈ a ++ b ++ rest, sinfo (cs1 ++ [{ cells := ch.cells }]) x = sinfo cs x := by
            intro x hx
            rw [sinfo_append _ (c2.lt hx), c4 x hx]
          have k3 : sinfo (cs1 ++ [{ cells := ch.cells }]) { it with chain := cs1.length, gone := 0 } =
              some (s.1, false, true) := by
            unfold sinfo
            rw [chainOf_of (c := { cells := ch.cells }) (by simp) rfl rfl]
            simp [g2]
          have k4 : tags (s.1, false, true) = tags s := by
            unfold tags
            rw [hflag]
          have k5 : visit ((p ++ (s.1, false, true) :: q).map tags) = visit ((p ++ s :: q).map tags) := by
            simp only [List.map_append, List.map_cons, k4]
          have k6 : (p ++ (s.1, false, true) :: q).map (·.1) = (p ++ s :: q).map (·.1) := by simp
          obtain ⟨cs2, its2, ok, r1, r2, r3, r4, r5, r6⟩ := ih (take al).2
            (cs1 ++ [{ cells := ch.cells }]) (a ++ { it with chain := cs1.length, gone := 0 } :: b)
            (p ++ (s.1, false, true) :: q) (k1.perm (perm_mid a b rest _).symm)
            (by
              simp only [List.map_append, List.map_cons]
              rw [map_sinfo_congr (fun x hx => k2 x (by simp [hx])),
                map_sinfo_congr (fun x hx => k2 x (by simp [hx])), f3, f5, k3])
            (by rw [k5]; exact hf)
            (by
              rw [measure_split] at hm ⊢
              rw [hs1] at hm
              simp only [Bool.false_eq_true, if_false, if_true] at hm ⊢
              omega)
          refine ⟨cs2, its2, ok, r1, r2, ?_, ?_, ?_, ?_⟩
          · simp only [List.length_append, List.length_singleton] at r3
            omega
          · intro x hx
            rw [r4 x hx, k2 x (by simp [hx])]
          · intro hb
            apply r5
            intro b hb'
            exact hb b (List.mem_of_mem_tail hb')
          · intro hok
            obtain ⟨sh', s1, s2, s3, s4, s5⟩ := r6 hok
            rw [k6] at s3 s4
            refine ⟨sh', s1, s2, s3, s4, fun hne => s5 ?_⟩
            intro t ht
            rcases List.mem_append.1 ht with ht | ht
            · exact hne t (by simp [ht])
            · rcases List.mem_cons.1 ht with rfl | ht
              · exact hne s (by simp)
              · exact hne t (by simp [ht])
        · have hnal : (!(take al).1) = true := by
            cases hb : (take al).1
            · rfl
            · exact absurd hb hal
          simp only [hnal, if_true]
          refine ⟨_, _, _, rfl, h, Nat.le_refl _, fun _ _ => rfl, ?_, fun e => (nomatch e)⟩
          intro hb
          exfalso
          apply hal
          cases al with
          | nil => rfl
          | cons b bs => exact hb b (List.mem_cons_self ..)
      · rw [if_neg hgai]
        have hrc : ch.rc = none := by
          rw [hflag] at g4
          cases hr : ch.rc with
          | none => rfl
          | some n =>
            rw [hr] at g4
            simp only [Bool.not_eq_true] at hgai
            rw [hgai] at g4
            simp at g4
        have hs1 : s.2.1 = false := by rw [← g3]; simpa using hgai
        obtain ⟨cs1, its1, d1, d2, d3, d4, d5⟩ := delCell_ok (c := c) h g1 hrc (by rw [g2]; exact hcs)
        rw [← f2, d1]
        simp only []
        -- what remains
        have key : ∃ sh1 : List (List Sock × Bool × Bool), its1.map (sinfo cs1) = sh1.map some ∧
            visit (sh1.map tags) = (visit ((p ++ s :: q).map tags)).eraseIdx j ∧
            measure sh1 < measure (p ++ s :: q) ∧
            ((∀ s' ∈ p ++ s :: q, s'.1 ≠ []) → ∀ s' ∈ sh1, s'.1 ≠ []) := by
          have hce : c < l.length := e3
          have hve := visit_erase P l Q c e4 hce
          rw [← e5, ← e1] at hve
          have hle : l.eraseIdx c = (s.1.eraseIdx c).map (·, s.2.2) := by
            rw [← e10]; unfold tags; rw [eraseIdx_map']
          rcases d5 with ⟨u1, u2⟩ | ⟨it', u1, u2, u3⟩
          · refine ⟨p ++ q, ?_, ?_, ?_, ?_⟩
            · rw [u2, List.map_append, List.map_append,
                map_sinfo_congr (fun x hx => d4 x (by simp [hx])),
                map_sinfo_congr (fun x hx => d4 x (by simp [hx])), f3, f5]
            · rw [hve, if_pos (by rw [hle, ← g2, u1]; rfl), List.map_append, e7, e11]
            · rw [measure_split]; omega
            · intro hne s' hs'
              rcases List.mem_append.1 hs' with hs' | hs'
              · exact hne s' (by simp [hs'])
              · exact hne s' (by simp [hs'])
          · rw [g2] at u2 u3
            rw [g3, hs1] at u3
            refine ⟨p ++ (s.1.eraseIdx c, false, true) :: q, ?_, ?_, ?_, ?_⟩
            · rw [u1, List.map_append, List.map_append, List.map_cons, List.map_cons,
                map_sinfo_congr (fun x hx => d4 x (by simp [hx])),
                map_sinfo_congr (fun x hx => d4 x (by simp [hx])), f3, f5, u3]
            · rw [hve, if_neg (by rw [hle]; simpa using u2), List.map_append, List.map_cons, e7, e11, hle,
                hflag]
              rfl
            · rw [measure_split, measure_split, hs1]
              have := List.length_eraseIdx_of_lt hcs
              simp only [Bool.false_eq_true, if_false]
              omega
            · intro hne s' hs'
              rcases List.mem_append.1 hs' with hs' | hs'
              · exact hne s' (by simp [hs'])
              · rcases List.mem_cons.1 hs' with rfl | hs'
                · exact u2
                · exact hne s' (by simp [hs'])
        obtain ⟨sh1, v1, v2, v3, v4⟩ := key
        have v5 : visit (sh1.map (·.1)) = (visit ((p ++ s :: q).map (·.1))).eraseIdx j := by
          rw [← visit_tags, v2, ← visit_tags, eraseIdx_map']
        obtain ⟨cs2, its2, ok, r1, r2, r3, r4, r5, r6⟩ := ih al cs1 its1 sh1 d2 v1
          (by rw [v2]; exact hf.erase j) (by omega)
        refine ⟨cs2, its2, ok, r1, r2, by omega, ?_, r5, ?_⟩
        · intro x hx
          rw [r4 x hx, d4 x (by simp [hx])]
        · intro hok
          obtain ⟨sh', s1, s2, s3, s4, s5⟩ := r6 hok
          rw [v5] at s3 s4
          refine ⟨sh', s1, s2, s3.trans (List.eraseIdx_sublist _ _), ?_, fun hne => s5 (v4 hne)⟩
          intro hstd
          rw [s4 fun x hx => hstd x ((List.eraseIdx_sublist _ _).subset hx)]
          apply firsts_erase _ _ _ y hstd (by simp) hy
          refine ⟨x, ?_, hxy⟩
          rw [List.nil_append]
          have : ((visit ((p ++ s :: q).map (·.1))).take j)[i]? = some x := by
            rw [List.getElem?_take_of_lt hij]; exact hx
          exact List.mem_of_getElem? this

/-! ## Sharing -/

theorem cnt_one_unique {k : Nat} {all : List Item} (h : cnt k all = 1) {x y : Item} (hx : x ∈ all)
    (hy : y ∈ all) (ex : x.chain = k) (ey : y.chain = k) : x = y := by
  induction all with
  | nil => cases hx
  | cons z zs ih =>
    rw [cnt_cons] at h
    have pos : ∀ w ∈ zs, w.chain = k → 0 < cnt k zs := by
      intro w hw e
      have := cnt_pos hw
      rwa [e] at this
    rcases List.mem_cons.1 hx with hx1 | hx1
    · rcases List.mem_cons.1 hy with hy1 | hy1
      · rw [hx1, hy1]
      · have := pos y hy1 ey
        rw [if_pos (hx1 ▸ ex)] at h
        omega
    · rcases List.mem_cons.1 hy with hy1 | hy1
      · have := pos x hx1 ex
        rw [if_pos (hy1 ▸ ey)] at h
        omega
      · apply ih _ hx1 hy1
        have := pos x hx1 ex
        split at h <;> omega

/-- What is seen through an item, with the marks and mask of the item. -/
def inf (cs : List Chain) (it : Item) : Option (List Sock × Bool × Bool × Nat) :=
  (chainOf cs it).map fun c => (c.cells, c.gai, it.only, it.mask)

theorem inf_of_sinfo {cs cs' : List Chain} {it : Item} (h : sinfo cs' it = sinfo cs it) :
    inf cs' it = inf cs it := by
  unfold sinfo at h
  unfold inf
  cases h1 : chainOf cs' it with
  | none =>
    cases h2 : chainOf cs it with
    | none => rfl
    | some c => rw [h1, h2] at h; cases h
  | some c' =>
    cases h2 : chainOf cs it with
    | none => rw [h1, h2] at h; cases h
    | some c =>
      rw [h1, h2] at h
      simp only [Option.map_some, Option.some.injEq, Prod.mk.injEq] at h ⊢
      exact ⟨h.1, h.2.1, trivial⟩

/-- One more item points to a chain. -/
theorem Ok.share {cs : List Chain} {all : List Item} (h : Ok cs all) {it : Item} (hi : it ∈ all)
    (ho : it.only = false) {c : Chain} (e : cs[it.chain]? = some c) (hl : c.live = true) :
    Ok (cs.set it.chain { c with rc := some (cnt it.chain all + 1) }) (it :: all) ∧
      ∀ x ∈ all, inf (cs.set it.chain { c with rc := some (cnt it.chain all + 1) }) x = inf cs x := by
  have hgood : ∀ x ∈ all, x.chain = it.chain → x.only = false ∧ x.gone = c.gone := by
    intro x hx ex
    obtain ⟨c', h1, h2⟩ := h.good x hx
    obtain ⟨e', hl', hg'⟩ := chainOf_eq h1
    rw [ex, e] at e'
    cases e'
    refine ⟨?_, hg'⟩
    cases hxo : x.only with
    | false => rfl
    | true =>
      have hr := h2 hxo
      have := (h.refs it.chain c e hl).1 hr
      have := cnt_one_unique this hx hi ex rfl
      rw [this, ho] at hxo
      cases hxo
  have hch : ∀ x ∈ all, x.chain = it.chain →
      chainOf (cs.set it.chain { c with rc := some (cnt it.chain all + 1) }) x =
        some { c with rc := some (cnt it.chain all + 1) } := by
    intro x hx ex
    exact chainOf_of (by rw [ex, get_set_self e]) hl (hgood x hx ex).2
  have hmem : ∀ x ∈ it :: all, x ∈ all := by
    intro x hx
    rcases List.mem_cons.1 hx with rfl | hx
    · exact hi
    · exact hx
  refine ⟨⟨?_, ?_⟩, ?_⟩
  · intro x hx
    have hx := hmem x hx
    by_cases ex : x.chain = it.chain
    · refine ⟨_, hch x hx ex, fun h => ?_⟩
      rw [(hgood x hx ex).1] at h
      cases h
    · obtain ⟨c', h1, h2⟩ := h.good x hx
      exact ⟨c', by rw [chainOf_set_ne _ _ _ _ ex]; exact h1, h2⟩
  · intro k c' e' hl'
    by_cases hk : k = it.chain
    · subst hk
      rw [get_set_self e] at e'
      cases e'
      refine ⟨fun h => (nomatch h), fun n hn => ?_⟩
      have hn : cnt it.chain all + 1 = n := by simpa using hn
      rw [cnt_cons, if_pos rfl]
      omega
    · rw [List.getElem?_set_ne (fun e => hk e.symm)] at e'
      have := h.refs k c' e' hl'
      rw [cnt_cons, if_neg (fun e => hk e.symm)]
      exact this
  · intro x hx
    by_cases ex : x.chain = it.chain
    · obtain ⟨c', h1, h2⟩ := h.good x hx
      obtain ⟨e', _, _⟩ := chainOf_eq h1
      rw [ex, e] at e'
      cases e'
      unfold inf
      rw [hch x hx ex, h1]
      rfl
    · unfold inf
      rw [chainOf_set_ne _ _ _ _ ex]

theorem inf_append {cs : List Chain} {it : Item} (c : List Chain) (h : it.chain < cs.length) :
    inf (cs ++ c) it = inf cs it := by
  unfold inf
  rw [chainOf_append c h]

theorem take_true {al : List Bool} (h : ∀ b ∈ al, b = true) :
    (take al).1 = true ∧ ∀ b ∈ (take al).2, b = true := by
  cases al with
  | nil => exact ⟨rfl, by intro b hb; cases hb⟩
  | cons b bs =>
    exact ⟨h b (List.mem_cons_self ..), fun x hx => h x (List.mem_cons_of_mem _ hx)⟩

/-- The allocations whose failures the code does not survive succeed. -/
def Enough (m : Mem) : Prop := (∀ b ∈ m.link, b = true) ∧ ∀ b ∈ m.copy, b = true

theorem perm_snoc (acc all : List Item) (x : Item) :
    (x :: (acc ++ all)).Perm ((acc ++ [x]) ++ all) := by
  rw [List.append_assoc]
  exact List.perm_middle.symm

theorem listDup_ok (l1s : List Item) (m : Mem) (cs : List Chain) (acc all : List Item)
    (h : Ok cs (acc ++ all)) (hs : ∀ x ∈ l1s, x ∈ all) (hm : Enough m) :
    ∃ m' cs' r, listDup m cs acc l1s = some (m', cs', r) ∧ m'.start = m.start ∧ m'.ded = m.ded ∧
      Enough m' ∧ cs.length ≤ cs'.length ∧ (∀ x ∈ all, inf cs' x = inf cs x) ∧
      (r = none → Ok cs' all) ∧
      ((∀ b ∈ m.rc, b = true) → r ≠ none ∧ ∀ b ∈ m'.rc, b = true) ∧
      (∀ new, r = some new → Ok cs' (new ++ all) ∧ ∃ add, new = acc ++ add ∧
        add.map (inf cs') = l1s.map (inf cs) ∧ ∀ x ∈ acc, inf cs' x = inf cs x) := by
  induction l1s generalizing m cs acc with
  | nil =>
    refine ⟨m, cs, some acc, rfl, rfl, rfl, hm, Nat.le_refl _, fun _ _ => rfl, fun e => (nomatch e),
      fun hb => ⟨fun e => (nomatch e), hb⟩, ?_⟩
    intro new e
    cases e
    exact ⟨h, [], by simp, rfl, fun _ _ => rfl⟩
  | cons l1 rest ih =>
    have hl1 := hs l1 (List.mem_cons_self ..)
    have hrest : ∀ x ∈ rest, x ∈ all := fun x hx => hs x (List.mem_cons_of_mem _ hx)
    obtain ⟨c, hc, hrc⟩ := h.good l1 (List.mem_append_right _ hl1)
    obtain ⟨e, hl, hg⟩ := chainOf_eq hc
    unfold listDup
    have hlink := take_true hm.1
    rw [if_neg (by rw [hlink.1]; simp)]
    have hm1 : Enough (if acc = [] then m else { m with link := (take m.link).2 }) ∧
        (if acc = [] then m else { m with link := (take m.link).2 }).start = m.start ∧
        (if acc = [] then m else { m with link := (take m.link).2 }).ded = m.ded ∧
        (if acc = [] then m else { m with link := (take m.link).2 }).rc = m.rc := by
      split
      · exact ⟨hm, rfl, rfl, rfl⟩
      · exact ⟨⟨hlink.2, hm.2⟩, rfl, rfl, rfl⟩
    generalize (if acc = [] then m else { m with link := (take m.link).2 }) = m1 at hm1
    obtain ⟨hm1, hst, hde, hrr⟩ := hm1
    simp only []
    -- what follows one more item
    have go : ∀ (m2 : Mem) (cs2 : List Chain) (it : Item), Ok cs2 ((acc ++ [it]) ++ all) → Enough m2 →
        m2.start = m.start → m2.ded = m.ded → ((∀ b ∈ m.rc, b = true) → ∀ b ∈ m2.rc, b = true) →
        cs.length ≤ cs2.length →
        (∀ x ∈ acc ++ all, inf cs2 x = inf cs x) → inf cs2 it = inf cs l1 →
        ∃ m' cs' r, listDup m2 cs2 (acc ++ [it]) rest = some (m', cs', r) ∧ m'.start = m.start ∧
          m'.ded = m.ded ∧ Enough m' ∧ cs.length ≤ cs'.length ∧ (∀ x ∈ all, inf cs' x = inf cs x) ∧
          (r = none → Ok cs' all) ∧
          ((∀ b ∈ m.rc, b = true) → r ≠ none ∧ ∀ b ∈ m'.rc, b = true) ∧
          (∀ new, r = some new → Ok cs' (new ++ all) ∧ ∃ add, new = acc ++ add ∧
            add.map (inf cs') = (l1 :: rest).map (inf cs) ∧ ∀ x ∈ acc, inf cs' x = inf cs x) := by
      intro m2 cs2 it h2 hm2 hst2 hde2 hrc2 hlen hinf hit
      obtain ⟨m', cs', r, i1, i2, i3, i4, i5, i6, i7, i8, i9⟩ := ih m2 cs2 (acc ++ [it]) h2 hrest hm2
      refine ⟨m', cs', r, i1, by rw [i2, hst2], by rw [i3, hde2], i4, by omega, ?_, i7,
        fun hb => i8 (hrc2 hb), ?_⟩
      · intro x hx
        rw [i6 x hx, hinf x (List.mem_append_right _ hx)]
      · intro new hn
        obtain ⟨j1, add, j2, j3, j4⟩ := i9 new hn
        refine ⟨j1, it :: add, by rw [j2]; simp, ?_, ?_⟩
        · rw [List.map_cons, List.map_cons, j3, j4 it (by simp), hit]
          congr 1
          apply List.map_congr_left
          intro x hx
          exact hinf x (List.mem_append_right _ (hrest x hx))
        · intro x hx
          rw [j4 x (by simp [hx]), hinf x (List.mem_append_left _ hx)]
    by_cases ho : l1.only = true
    · rw [if_pos ho, hc]
      have hcopy := take_true hm1.2
      simp only [hcopy.1, if_true]
      have k1 := h.push { cells := c.cells, gai := c.gai } { l1 with chain := cs.length, gone := 0 }
        ⟨rfl, rfl, rfl, rfl⟩
      apply go
      · exact k1.perm (perm_snoc _ _ _)
      · exact ⟨hm1.1, hcopy.2⟩
      · exact hst
      · exact hde
      · intro hb; show ∀ b ∈ m1.rc, b = true; rw [hrr]; exact hb
      · simp
      · intro x hx
        exact inf_append _ (h.lt hx)
      · unfold inf
        rw [chainOf_of (c := { cells := c.cells, gai := c.gai }) (by simp) rfl rfl, hc]
        rfl
    · rw [if_neg ho, e]
      have ho' : l1.only = false := by simpa using ho
      have hnl : (!c.live) = false := by rw [hl]; rfl
      simp only [hnl, Bool.false_eq_true, if_false]
      have hr := h.refs l1.chain c e hl
      obtain ⟨k1, k2⟩ := h.share (List.mem_append_right _ hl1) ho' e hl
      cases hcr : c.rc with
      | none =>
        have h1 := hr.1 hcr
        rw [h1] at k1 k2
        simp only []
        by_cases ht : (take m1.rc).1 = true
        · rw [if_pos ht]
          apply go
          · exact k1.perm (perm_snoc _ _ _)
          · exact ⟨hm1.1, hm1.2⟩
          · exact hst
          · exact hde
          · intro hb
            have := take_true (al := m1.rc) (by rw [hrr]; exact hb)
            exact this.2
          · simp
          · exact k2
          · exact k2 l1 (List.mem_append_right _ hl1)
        · rw [if_neg ht]
          obtain ⟨cs2, f1, f2, f3, f4⟩ := freeItems_ok h
          rw [f1]
          refine ⟨_, cs2, none, rfl, hst, hde, ⟨hm1.1, hm1.2⟩, by omega,
            fun x hx => inf_of_sinfo (f4 x hx), fun _ => f2, ?_, fun _ e => (nomatch e)⟩
          intro hb
          exact absurd (take_true (al := m1.rc) (by rw [hrr]; exact hb)).1 ht
      | some n =>
        obtain ⟨h1, h2⟩ := hr.2 n hcr
        match n, h1, h2, hcr with
        | n + 1, h1, h2, hcr =>
          rw [← h1] at k1 k2
          simp only []
          apply go
          · exact k1.perm (perm_snoc _ _ _)
          · exact hm1
          · exact hst
          · exact hde
          · rw [hrr]; exact id
          · simp
          · exact k2
          · exact k2 l1 (List.mem_append_right _ hl1)

/-! ## The addresses of a user -/

/-- The items of all addresses. -/
def W.all (w : W) : List Item := (w.addrs.filterMap id).flatten

theorem mem_all {w : W} {a : Nat} {its : List Item} (h : w.addr a = some its) :
    ∀ x ∈ its, x ∈ w.all := by
  intro x hx
  unfold W.addr at h
  rw [Option.join_eq_some_iff] at h
  unfold W.all
  rw [List.mem_flatten]
  refine ⟨its, ?_, hx⟩
  rw [List.mem_filterMap]
  exact ⟨some its, List.mem_of_getElem? h, rfl⟩

theorem mem_all_iff {w : W} {x : Item} (h : x ∈ w.all) : ∃ a its, w.addr a = some its ∧ x ∈ its := by
  unfold W.all at h
  rw [List.mem_flatten] at h
  obtain ⟨its, h1, h2⟩ := h
  rw [List.mem_filterMap] at h1
  obtain ⟨o, h3, h4⟩ := h1
  simp only [id] at h4
  subst h4
  obtain ⟨a, ha⟩ := List.getElem?_of_mem h3
  exact ⟨a, its, by unfold W.addr; rw [ha]; rfl, h2⟩

theorem all_push (cs : List Chain) (w : W) (r : Option (List Item)) :
    (W.mk cs (w.addrs ++ [r])).all = w.all ++ r.getD [] := by
  unfold W.all
  cases r <;> simp

theorem all_free {w : W} {a : Nat} {its : List Item} (h : w.addr a = some its) (cs : List Chain) :
    w.all.Perm (its ++ (W.mk cs (w.addrs.set a none)).all) := by
  unfold W.addr at h
  rw [Option.join_eq_some_iff] at h
  unfold W.all
  simp only []
  generalize w.addrs = l at h
  induction l generalizing a with
  | nil => simp at h
  | cons x xs ih =>
    cases a with
    | zero =>
      simp only [List.getElem?_cons_zero, Option.some.injEq] at h
      subst h
      simp
    | succ a =>
      simp only [List.getElem?_cons_succ] at h
      have := ih h
      cases x with
      | none => simpa using this
      | some y =>
        simp only [List.set_cons_succ, List.filterMap_cons, id, List.flatten_cons]
        refine (List.Perm.append_left y this).trans ?_
        rw [← List.append_assoc, ← List.append_assoc]
        exact List.Perm.append_right _ List.perm_append_comm

theorem nested_congr {cs cs' : List Chain} {its its' : List Item}
    (h : its.map (inf cs) = its'.map (inf cs')) : nested cs its = nested cs' its' := by
  induction its generalizing its' with
  | nil =>
    cases its' with
    | nil => rfl
    | cons => simp at h
  | cons x xs ih =>
    cases its' with
    | nil => simp at h
    | cons y ys =>
      simp only [List.map_cons, List.cons.injEq] at h
      unfold nested
      rw [ih h.2]
      have h1 := h.1
      unfold inf at h1
      cases hx : chainOf cs x with
      | none =>
        cases hy : chainOf cs' y with
        | none => rfl
        | some c => rw [hx, hy] at h1; cases h1
      | some c =>
        cases hy : chainOf cs' y with
        | none => rw [hx, hy] at h1; cases h1
        | some c' =>
          rw [hx, hy] at h1
          simp only [Option.map_some, Option.some.injEq, Prod.mk.injEq] at h1
          simp only [h1.1]

theorem addr_push {w : W} {cs : List Chain} {r : Option (List Item)} {b : Nat} {its : List Item}
    (h : w.addr b = some its) : (W.mk cs (w.addrs ++ [r])).addr b = some its := by
  unfold W.addr at *
  rw [Option.join_eq_some_iff] at *
  rw [List.getElem?_append_left (lt_of_get h)]
  exact h

theorem addr_new (w : W) (cs : List Chain) (r : Option (List Item)) :
    (W.mk cs (w.addrs ++ [r])).addr w.addrs.length = r := by
  unfold W.addr
  simp

theorem list_same {w w' : W} {b : Nat} {its : List Item} (h : w.addr b = some its)
    (h' : w'.addr b = some its) (hs : ∀ x ∈ w.all, inf w'.chains x = inf w.chains x) :
    w'.list b = w.list b := by
  unfold W.list
  rw [h, h']
  simp only [Option.bind_some]
  rw [nested_congr (List.map_congr_left fun x hx => (hs x (mem_all h x hx)))]

theorem list_some {w : W} (hw : Ok w.chains w.all) {b : Nat} {its : List Item} (h : w.addr b = some its) :
    ∃ l, w.list b = some l := by
  obtain ⟨sh, e⟩ := shape_of_ok hw (mem_all h)
  refine ⟨visit (sh.map (·.1)), ?_⟩
  unfold W.list
  rw [h]
  simp [nested_of_shape e]

theorem perm_comm_mid (a b : List Item) (x : Item) : (a ++ x :: b).Perm ((x :: a) ++ b) := by
  exact List.perm_middle

/-- The chains `getaddrinfo` gave. -/
theorem pushMany (ls : List (Nat × List Sock)) (cs : List Chain) (all : List Item) (B n : Nat)
    (h : Ok cs all) (hB : cs.length = B + n) :
    Ok (cs ++ ls.map fun p => ({ cells := p.2, gai := true } : Chain))
      ((ls.zipIdx n).map (fun q => ({ chain := B + q.2, mask := q.1.1 } : Item)) ++ all) ∧
    ((ls.zipIdx n).map (fun q => ({ chain := B + q.2, mask := q.1.1 } : Item))).map
      (sinfo (cs ++ ls.map fun p => ({ cells := p.2, gai := true } : Chain))) =
      (ls.map fun p => (p.2, true, true)).map some ∧
    (∀ x ∈ all, sinfo (cs ++ ls.map fun p => ({ cells := p.2, gai := true } : Chain)) x = sinfo cs x) := by
  induction ls generalizing cs all n with
  | nil =>
    refine ⟨by simpa using h, rfl, fun x _ => by simp⟩
  | cons x xs ih =>
    have h1 := h.push { cells := x.2, gai := true } { chain := B + n, mask := x.1 }
      ⟨rfl, rfl, by rw [hB], rfl⟩
    obtain ⟨i1, i2, i3⟩ := ih (cs ++ [{ cells := x.2, gai := true }])
      ({ chain := B + n, mask := x.1 } :: all) (n + 1) h1 (by simp [hB]; omega)
    rw [List.append_assoc] at i1 i2 i3
    simp only [List.zipIdx_cons, List.map_cons] at *
    refine ⟨?_, ?_, ?_⟩
    · exact i1.perm (perm_comm_mid _ _ _)
    · rw [show (cs ++ ({ cells := x.2, gai := true } : Chain) ::
          xs.map fun p => ({ cells := p.2, gai := true } : Chain)) = cs ++ ([{ cells := x.2, gai := true }] ++
          xs.map fun p => ({ cells := p.2, gai := true } : Chain)) from rfl, i2,
        i3 _ (List.mem_cons_self ..)]
      congr 1
      unfold sinfo
      rw [chainOf_of (c := { cells := x.2, gai := true }) (by simp [← hB]) rfl rfl]
      rfl
    · intro y hy
      exact (i3 y (List.mem_cons_of_mem _ hy)).trans (sinfo_append _ (h.lt hy))

theorem fuel_enough {cs : List Chain} {its : List Item} {sh : List (List Sock × Bool × Bool)}
    (h : its.map (sinfo cs) = sh.map some) : measure sh < dedupFuel cs its := by
  unfold measure dedupFuel
  rw [nested_of_shape h]
  have h1 := congrArg List.length h
  simp only [List.length_map] at h1
  have h2 := List.countP_le_length (p := fun s : List Sock × Bool × Bool => s.2.1) (l := sh)
  simp only [Option.getD_some]
  omega

theorem fine_true {sh : List (List Sock × Bool × Bool)} (h : ∀ s ∈ sh, s.2.2 = true) :
    Fine (visit (sh.map tags)) := by
  have : ∀ x ∈ visit (sh.map tags), x.2 = true := by
    induction sh with
    | nil => intro x hx; cases hx
    | cons s sh ih =>
      intro x hx
      simp only [List.map_cons] at hx
      by_cases hs : tags s = []
      · rw [hs] at hx; cases hx
      · rw [visit_cons _ _ hs] at hx
        rcases List.mem_append.1 hx with hx | hx
        · unfold tags at hx
          rw [List.mem_map] at hx
          obtain ⟨y, _, rfl⟩ := hx
          exact h s (List.mem_cons_self ..)
        · exact ih (fun s hs => h s (List.mem_cons_of_mem _ hs)) x hx
  unfold Fine
  rw [List.pairwise_iff_getElem]
  intro i j hi hj hij _
  exact this _ (List.getElem_mem hj)

theorem list_new {w : W} {cs : List Chain} {its : List Item} {sh : List (List Sock × Bool × Bool)}
    (h : its.map (sinfo cs) = sh.map some) :
    (W.mk cs (w.addrs ++ [some its])).list w.addrs.length = some (visit (sh.map (·.1))) := by
  unfold W.list
  rw [addr_new]
  simp [nested_of_shape h]

/-- What an operation that adds an address does to the rest. -/
structure Adds (w w' : W) (r : Option (List Item)) : Prop where
  ok : Ok w'.chains w'.all
  addrs : w'.addrs = w.addrs ++ [r]
  same : ∀ x ∈ w.all, inf w'.chains x = inf w.chains x

theorem Adds.list {w w' : W} {r : Option (List Item)} (h : Adds w w' r) {b : Nat} {its : List Item}
    (hb : w.addr b = some its) : w'.addr b = some its ∧ w'.list b = w.list b := by
  have : w'.addr b = some its := by
    have := addr_push (cs := w'.chains) (r := r) hb
    rw [← h.addrs] at this
    exact this
  exact ⟨this, list_same hb this h.same⟩

theorem make_adds (w : W) (hw : Ok w.chains w.all) (cells : List Sock) (only : Bool) :
    Adds w (make w cells only) (some [{ chain := w.chains.length, only }]) ∧
      (make w cells only).list w.addrs.length = some cells := by
  have h := hw.push { cells } { chain := w.chains.length, only } ⟨rfl, rfl, rfl, rfl⟩
  refine ⟨⟨?_, rfl, ?_⟩, ?_⟩
  · show Ok _ (W.mk _ (w.addrs ++ [_])).all
    rw [all_push]
    exact h.perm (List.perm_append_comm (l₁ := [({ chain := w.chains.length, only } : Item)]))
  · intro x hx
    exact inf_append _ (hw.lt hx)
  · have := list_new (w := w) (cs := w.chains ++ [{ cells }]) (its := [{ chain := w.chains.length, only }])
      (sh := [(cells, false, true)]) (by
        simp only [List.map_cons, List.map_nil]
        unfold sinfo
        rw [chainOf_of (c := { cells }) (by simp) rfl rfl]
        rfl)
    rw [show make w cells only = W.mk (w.chains ++ [{ cells }])
      (w.addrs ++ [some [{ chain := w.chains.length, only }]]) from rfl, this]
    cases cells <;> simp [visit]

theorem ok_none {w : W} {cs : List Chain} (h : Ok cs w.all) (hs : ∀ x ∈ w.all, inf cs x = inf w.chains x) :
    Adds w ⟨cs, w.addrs ++ [none]⟩ none :=
  ⟨by rw [all_push]; simpa using h, rfl, hs⟩

theorem ok_some {w : W} {cs : List Chain} {its : List Item} (h : Ok cs (its ++ w.all))
    (hs : ∀ x ∈ w.all, inf cs x = inf w.chains x) :
    Adds w ⟨cs, w.addrs ++ [some its]⟩ (some its) :=
  ⟨by rw [all_push]; exact h.perm List.perm_append_comm, rfl, hs⟩

theorem dup_adds (w : W) (hw : Ok w.chains w.all) {a : Nat} {its : List Item} (ha : w.addr a = some its)
    (m : Mem) (hm : Enough m) :
    ∃ w' r, dup w its m = some w' ∧ Adds w w' r ∧
      (m.addr = true → (∀ b ∈ m.rc, b = true) → r ≠ none) ∧
      (r ≠ none → w'.list w.addrs.length = w.list a) := by
  unfold dup
  cases hma : m.addr with
  | false =>
    exact ⟨_, none, rfl, ok_none hw fun _ _ => rfl, fun e => (nomatch e), fun e => absurd rfl e⟩
  | true =>
    obtain ⟨m', cs', r, i1, i2, i3, i4, i5, i6, i7, i8, i9⟩ :=
      listDup_ok its m w.chains [] w.all hw (mem_all ha) hm
    simp only [Bool.not_true, Bool.false_eq_true, if_false, i1]
    refine ⟨_, r, rfl, ?_, fun _ hb => (i8 hb).1, ?_⟩
    · cases r with
      | none => exact ok_none (i7 rfl) i6
      | some new => exact ok_some (i9 new rfl).1 i6
    · cases r with
      | none => exact fun e => absurd rfl e
      | some new =>
        intro _
        obtain ⟨j1, add, j2, j3, j4⟩ := i9 new rfl
        rw [List.nil_append] at j2
        subst j2
        unfold W.list
        rw [addr_new, ha]
        simp only [Option.bind_some]
        rw [nested_congr j3]

/-- The result of removing duplicates: the first of each. -/
theorem dedup_adds {w : W} {cs : List Chain} {its : List Item} {sh : List (List Sock × Bool × Bool)}
    (al : List Bool) (h : Ok cs (its ++ w.all)) (hs : its.map (sinfo cs) = sh.map some)
    (hf : Fine (visit (sh.map tags))) (hi : ∀ x ∈ w.all, inf cs x = inf w.chains x) :
    ∃ w' r, (match dedup (dedupFuel cs its) al cs its with
      | none => none
      | some (cs, its, true) => some (W.mk cs (w.addrs ++ [some its]))
      | some (cs, its, false) => (freeItems cs its).map fun cs => W.mk cs (w.addrs ++ [none])) = some w' ∧
      Adds w w' r ∧ ((∀ b ∈ al, b = true) → r ≠ none) ∧
      (r ≠ none → ∃ l, w'.list w.addrs.length = some l ∧
        l.Pairwise (fun x y => equal x y true 0 = false) ∧ l.Sublist (visit (sh.map (·.1))) ∧
        ((∀ x ∈ visit (sh.map (·.1)), Std x) → l = firsts [] (visit (sh.map (·.1))))) := by
  obtain ⟨cs', its', ok, d1, d2, d3, d4, d5, d6⟩ := dedup_ok _ al cs its w.all sh h hs hf (fuel_enough hs)
  rw [d1]
  have hi' : ∀ x ∈ w.all, inf cs' x = inf w.chains x := fun x hx =>
    (inf_of_sinfo (d4 x hx)).trans (hi x hx)
  cases ok with
  | true =>
    obtain ⟨sh', s1, s2, s3, s4, s5⟩ := d6 rfl
    exact ⟨_, _, rfl, ok_some d2 hi', fun _ e => (nomatch e), fun _ => ⟨_, list_new s1, s2, s3, s4⟩⟩
  | false =>
    obtain ⟨cs2, f1, f2, f3, f4⟩ := freeItems_ok d2
    simp only [f1, Option.map_some]
    refine ⟨_, none, rfl, ok_none f2 fun x hx => (inf_of_sinfo (f4 x hx)).trans (hi' x hx), ?_,
      fun e => absurd rfl e⟩
    intro hb
    have := d5 hb
    cases this

theorem scan_adds (w : W) (hw : Ok w.chains w.all) (l : List (Nat × List Sock)) (al : List Bool) :
    ∃ w' r, scan w l al = some w' ∧ Adds w w' r ∧ (l ≠ [] → (∀ b ∈ al, b = true) → r ≠ none) ∧
      (r ≠ none → ∃ res, w'.list w.addrs.length = some res ∧
        res.Pairwise (fun x y => equal x y true 0 = false) ∧ res.Sublist (visit (l.map (·.2))) ∧
        ((∀ x ∈ visit (l.map (·.2)), Std x) → res = firsts [] (visit (l.map (·.2))))) := by
  unfold scan
  obtain ⟨p1, p2, p3⟩ := pushMany l w.chains w.all w.chains.length 0 hw (by simp)
  simp only []
  split
  · rename_i hn
    have hl : l = [] := by
      cases l with
      | nil => rfl
      | cons x xs => simp at hn
    refine ⟨_, none, rfl, ok_none hw fun _ _ => rfl, fun h => absurd hl h, fun e => absurd rfl e⟩
  · have hsh : (l.map fun p => (p.2, true, true)).map (·.1) = l.map (·.2) := by simp
    obtain ⟨w', r, e1, e2, e3, e4⟩ := dedup_adds al p1 p2
      (fine_true (by intro s hs; rw [List.mem_map] at hs; obtain ⟨q, _, rfl⟩ := hs; rfl))
      (fun x hx => inf_of_sinfo (p3 x hx))
    refine ⟨w', r, e1, e2, fun _ => e3, ?_⟩
    rw [hsh] at e4
    exact e4

/-- The cells of two addresses in a row, each with the mark that its chain is not shared by `dup`. -/
def marked (cs : List Chain) (its : List Item) : List (List (Sock × Bool)) :=
  its.filterMap fun it => (inf cs it).map fun s => s.1.map (·, s.2.1 || s.2.2.1)

theorem marked_congr {cs cs' : List Chain} {its its' : List Item}
    (h : its.map (inf cs) = its'.map (inf cs')) : marked cs its = marked cs' its' := by
  have e : ∀ cs its, marked cs its =
      (its.map (inf cs)).filterMap (fun o => o.map fun s => s.1.map (·, s.2.1 || s.2.2.1)) := by
    intro cs its
    unfold marked
    rw [List.filterMap_map]
    rfl
  rw [e, e, h]

/-- A mark of `marked` is one of `tags` in a good heap. -/
theorem fine_of_marked {cs : List Chain} {its all : List Item} {sh : List (List Sock × Bool × Bool)}
    (h : Ok cs all) (hsub : ∀ x ∈ its, x ∈ all) (hs : its.map (sinfo cs) = sh.map some)
    (hf : Fine (visit (marked cs its))) : Fine (visit (sh.map tags)) := by
  -- both lists have the same cells, and a mark of the first is one of the second
  have key : ∀ (its : List Item) (sh : List (List Sock × Bool × Bool)), (∀ x ∈ its, x ∈ all) →
      its.map (sinfo cs) = sh.map some →
      (visit (marked cs its)).length = (visit (sh.map tags)).length ∧
      ∀ (i : Nat) x y, (visit (marked cs its))[i]? = some x → (visit (sh.map tags))[i]? = some y →
        x.1 = y.1 ∧ (x.2 = true → y.2 = true) := by
    intro its
    induction its with
    | nil =>
      intro sh _ hs
      cases sh with
      | nil => exact ⟨rfl, fun i x y hx => by simp [marked, visit] at hx⟩
      | cons => simp at hs
    | cons it rest ih =>
      intro sh hsub hs
      cases sh with
      | nil => simp at hs
      | cons s sh =>
        simp only [List.map_cons, List.cons.injEq] at hs
        obtain ⟨i1, i2⟩ := ih sh (fun x hx => hsub x (List.mem_cons_of_mem _ hx)) hs.2
        obtain ⟨ch, g1, g2, g3, g4⟩ := sinfo_flag hs.1
        have hgood := h.good it (hsub it (List.mem_cons_self ..))
        rw [g1] at hgood
        obtain ⟨c', hc', ho⟩ := hgood
        cases hc'
        have hmk : marked cs (it :: rest) = (ch.cells.map (·, ch.gai || it.only)) :: marked cs rest := by
          unfold marked inf
          rw [List.filterMap_cons, g1]
          rfl
        have hfl : (ch.gai || it.only) = true → s.2.2 = true := by
          intro e
          rw [g4]
          rw [Bool.or_eq_true] at e
          rcases e with e | e
          · simp [e]
          · simp [ho e]
        rw [hmk]
        simp only [List.map_cons]
        by_cases hn : ch.cells = []
        · have h1 : tags s = [] := by unfold tags; rw [← g2, hn]; rfl
          rw [h1, hn]
          exact ⟨rfl, fun i x y hx => by simp [visit] at hx⟩
        · have hn1 : ch.cells.map (·, ch.gai || it.only) ≠ [] := by simpa using hn
          have hn2 : tags s ≠ [] := by unfold tags; rw [← g2]; simpa using hn
          rw [visit_cons _ _ hn1, visit_cons _ _ hn2]
          have hlen : (tags s).length = ch.cells.length := by unfold tags; rw [← g2]; simp
          refine ⟨by simp [i1, hlen], ?_⟩
          intro i x y hx hy
          by_cases hi : i < ch.cells.length
          · rw [List.getElem?_append_left (by simpa using hi)] at hx
            rw [List.getElem?_append_left (by rw [hlen]; exact hi)] at hy
            simp only [tags, ← g2, List.getElem?_map, List.getElem?_eq_getElem hi, Option.map_some,
              Option.some.injEq] at hx hy
            subst hx
            subst hy
            exact ⟨rfl, hfl⟩
          · rw [List.getElem?_append_right (by simpa using hi)] at hx
            rw [List.getElem?_append_right (by rw [hlen]; omega)] at hy
            simp only [List.length_map] at hx
            rw [hlen] at hy
            exact i2 _ x y hx hy
  obtain ⟨k1, k2⟩ := key its sh hsub hs
  unfold Fine at *
  rw [List.pairwise_iff_getElem] at *
  intro i j hi hj hij he
  have hi' : i < (visit (marked cs its)).length := by omega
  have hj' : j < (visit (marked cs its)).length := by omega
  obtain ⟨a1, a2⟩ := k2 i _ _ (List.getElem?_eq_getElem hi') (List.getElem?_eq_getElem hi)
  obtain ⟨b1, b2⟩ := k2 j _ _ (List.getElem?_eq_getElem hj') (List.getElem?_eq_getElem hj)
  apply b2
  apply hf i j hi' hj' hij
  rw [a1, b1]
  exact he

theorem cat_adds (w : W) (hw : Ok w.chains w.all) {a b : Nat} {its1 its2 : List Item}
    (ha : w.addr a = some its1) (hb : w.addr b = some its2) (m : Mem) (hm : Enough m)
    (hf : Fine (visit (marked w.chains (its1 ++ its2)))) :
    ∃ w' r, cat w its1 its2 m = some w' ∧ Adds w w' r ∧
      (m.addr = true → m.start = true → (∀ b ∈ m.rc, b = true) → (∀ b ∈ m.ded, b = true) → r ≠ none) ∧
      (r ≠ none → ∃ l n1 n2, w'.list w.addrs.length = some l ∧ nested w.chains its1 = some n1 ∧
        nested w.chains its2 = some n2 ∧
        l.Pairwise (fun x y => equal x y true 0 = false) ∧ l.Sublist (visit (n1 ++ n2)) ∧
        ((∀ x ∈ visit (n1 ++ n2), Std x) → l = firsts [] (visit (n1 ++ n2)))) := by
  unfold cat
  cases hma : m.addr with
  | false => exact ⟨_, none, rfl, ok_none hw fun _ _ => rfl, fun e => (nomatch e), fun e => absurd rfl e⟩
  | true =>
    obtain ⟨m1, cs1, r1, i1, i2, i3, i4, i5, i6, i7, i8, i9⟩ :=
      listDup_ok its1 m w.chains [] w.all hw (mem_all ha) hm
    simp only [Bool.not_true, Bool.false_eq_true, if_false, i1]
    cases r1 with
    | none =>
      refine ⟨_, none, rfl, ok_none (i7 rfl) i6, fun _ _ hr => absurd rfl (i8 hr).1, fun e => absurd rfl e⟩
    | some n1 =>
      obtain ⟨j1, add, j2, j3, j4⟩ := i9 n1 rfl
      rw [List.nil_append] at j2
      subst j2
      simp only [i2]
      cases hms : m.start with
      | false =>
        obtain ⟨cs2, f1, f2, f3, f4⟩ := freeItems_ok j1
        simp only [Bool.not_false, if_true, f1, Option.map_some]
        exact ⟨_, none, rfl, ok_none f2 fun x hx => (inf_of_sinfo (f4 x hx)).trans (i6 x hx),
          fun _ e => (nomatch e), fun e => absurd rfl e⟩
      | true =>
        obtain ⟨m2, cs2, r2, k1, k2, k3, k4, k5, k6, k7, k8, k9⟩ :=
          listDup_ok its2 m1 cs1 [] (n1 ++ w.all) j1
            (fun x hx => List.mem_append_right _ (mem_all hb x hx)) i4
        simp only [Bool.not_true, Bool.false_eq_true, if_false, k1]
        have hsame : ∀ x ∈ w.all, inf cs2 x = inf w.chains x := fun x hx =>
          (k6 x (List.mem_append_right _ hx)).trans (i6 x hx)
        cases r2 with
        | none =>
          obtain ⟨cs3, f1, f2, f3, f4⟩ := freeItems_ok (k7 rfl)
          simp only [f1, Option.map_some]
          refine ⟨_, none, rfl, ok_none f2 fun x hx => (inf_of_sinfo (f4 x hx)).trans (hsame x hx),
            fun _ _ hr => absurd rfl (k8 (i8 hr).2).1, fun e => absurd rfl e⟩
        | some n2 =>
          obtain ⟨l1, add2, l2, l3, l4⟩ := k9 n2 rfl
          rw [List.nil_append] at l2
          subst l2
          simp only []
          have hok : Ok cs2 ((n1 ++ n2) ++ w.all) := by
            refine l1.perm ?_
            rw [← List.append_assoc]
            exact List.Perm.append_right _ List.perm_append_comm
          have hinf : (n1 ++ n2).map (inf cs2) = (its1 ++ its2).map (inf w.chains) := by
            rw [List.map_append, List.map_append]
            congr 1
            · rw [← j3]
              exact List.map_congr_left fun x hx => k6 x (List.mem_append_left _ hx)
            · rw [l3]
              exact List.map_congr_left fun x hx => i6 x (mem_all hb x hx)
          obtain ⟨sh, hsh⟩ := shape_of_ok hok (its := n1 ++ n2)
            (fun x hx => List.mem_append_left _ hx)
          have hfine := fine_of_marked hok (fun x hx => List.mem_append_left _ hx) hsh
            (by rw [marked_congr hinf]; exact hf)
          obtain ⟨w', r, e1, e2, e3, e4⟩ := dedup_adds m2.ded hok hsh hfine hsame
          refine ⟨w', r, e1, e2, ?_, ?_⟩
          · intro _ _ _ hd
            apply e3
            rw [k3, i3]
            exact hd
          · intro hr
            obtain ⟨l, p1, p2, p3, p4⟩ := e4 hr
            have hn := nested_of_shape hsh
            rw [nested_congr hinf] at hn
            obtain ⟨sh1, q1⟩ := shape_of_ok hw (mem_all ha)
            obtain ⟨sh2, q2⟩ := shape_of_ok hw (mem_all hb)
            have q3 : (its1 ++ its2).map (sinfo w.chains) = (sh1 ++ sh2).map some := by
              rw [List.map_append, List.map_append, q1, q2]
            rw [nested_of_shape q3] at hn
            simp only [Option.some.injEq, List.map_append] at hn
            rw [← hn] at p3 p4
            exact ⟨l, _, _, p1, nested_of_shape q1, nested_of_shape q2, p2, p3, p4⟩

theorem free_ok (w : W) (hw : Ok w.chains w.all) {a : Nat} {its : List Item} (ha : w.addr a = some its) :
    ∃ cs, freeItems w.chains its = some cs ∧ Ok cs (W.mk cs (w.addrs.set a none)).all ∧
      ∀ b l, b ≠ a → w.addr b = some l →
        (W.mk cs (w.addrs.set a none)).addr b = some l ∧ (W.mk cs (w.addrs.set a none)).list b = w.list b := by
  have hp := all_free ha w.chains
  obtain ⟨cs, f1, f2, f3, f4⟩ := freeItems_ok (hw.perm hp)
  refine ⟨cs, f1, f2, ?_⟩
  intro b l hba hb
  have h1 : (W.mk cs (w.addrs.set a none)).addr b = some l := by
    unfold W.addr at *
    rw [List.getElem?_set_ne (fun e => hba e.symm)]
    exact hb
  refine ⟨h1, ?_⟩
  unfold W.list
  rw [hb, h1]
  simp only [Option.bind_some]
  rw [nested_congr (List.map_congr_left fun x hx => inf_of_sinfo (f4 x (mem_all (w := W.mk cs (w.addrs.set a none)) h1 x hx)))]

end Gensio.AddrInfo
