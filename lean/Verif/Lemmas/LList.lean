import Verif.Model.LList
/-! Helper lemmas for the linked list. -/
namespace Gensio.LList

@[simp] theorem upd_same {α : Type} (f : Ptr → α) (p : Ptr) (v : α) : upd f p v p = v := by simp [upd]
theorem upd_other {α : Type} (f : Ptr → α) {p q : Ptr} (v : α) (h : q ≠ p) : upd f p v q = f q := by
  simp [upd, h]

/-- Adjacent pointers of the walk are linked both ways. -/
def Chain (nx pv : Ptr → Option Ptr) : List Ptr → Prop
  | a :: b :: l => (nx a = some b ∧ pv b = some a) ∧ Chain nx pv (b :: l)
  | _ => True

theorem chain_append (nx pv : Ptr → Option Ptr) (u : List Ptr) (a : Ptr) (v : List Ptr) :
    Chain nx pv (u ++ a :: v) ↔ Chain nx pv (u ++ [a]) ∧ Chain nx pv (a :: v) := by
  induction u with
  | nil => simp [Chain]
  | cons x u ih =>
    cases u with
    | nil => simp [Chain]
    | cons y u =>
      simp only [List.cons_append, Chain] at ih ⊢
      rw [ih]; exact ⟨fun h => ⟨⟨h.1, h.2.1⟩, h.2.2⟩, fun h => ⟨h.1.1, h.1.2, h.2⟩⟩

theorem chain_congr {nx pv nx' pv' : Ptr → Option Ptr} (l : List Ptr) (h : Chain nx pv l)
    (h1 : ∀ x ∈ l.dropLast, nx' x = nx x) (h2 : ∀ x ∈ l.tail, pv' x = pv x) :
    Chain nx' pv' l := by
  induction l with
  | nil => trivial
  | cons a l ih =>
    cases l with
    | nil => trivial
    | cons b l =>
      refine ⟨⟨?_, ?_⟩, ih h.2 ?_ ?_⟩
      · rw [h1 a (by simp)]; exact h.1.1
      · rw [h2 b (by simp)]; exact h.1.2
      · intro x hx; exact h1 x (by simp [hx])
      · intro x hx; exact h2 x (by simp at hx ⊢; exact Or.inr hx)

/-- Full cycle of list `l` holding `xs`. -/
def cyc (l : Nat) (xs : List Nat) : List Ptr := .head l :: (xs.map .node ++ [.head l])

theorem cyc_split1 (l : Nat) (a b : List Nat) :
    cyc l (a ++ b) = (Ptr.head l :: a.map .node) ++ (b.map .node ++ [.head l]) := by simp [cyc]

/-- The state of the whole memory: which sequence each list holds. -/
structure Rep (m : Mem) (σ : Nat → List Nat) : Prop where
  chain : ∀ l, Chain m.next m.prev (cyc l (σ l))
  nodup : ∀ l, (σ l).Nodup
  mem : ∀ l n, m.list (.node n) = some l ↔ n ∈ σ l
  free : ∀ n, (∀ l, n ∉ σ l) → m.next (.node n) = none ∧ m.prev (.node n) = none

theorem Rep.disj {m σ} (h : Rep m σ) {l k n} (h1 : n ∈ σ l) (h2 : n ∈ σ k) : l = k := by
  have a := (h.mem l n).mpr h1
  have b := (h.mem k n).mpr h2
  rw [a] at b; simpa using b

theorem rep_init : Rep init fun _ => [] :=
  ⟨fun l => by simp [cyc, Chain, init], fun l => by simp, fun l n => by simp [init], fun n _ => by simp [init]⟩

theorem isFree_iff {m σ} (h : Rep m σ) (n : Nat) : isFree m n = true ↔ ∀ l, n ∉ σ l := by
  constructor
  · intro hf l hl
    have := (h.mem l n).mpr hl
    simp [isFree, this] at hf
  · intro hf
    have h1 := h.free n hf
    have h2 : m.list (.node n) = none := by
      cases hl : m.list (.node n) with
      | none => rfl
      | some l => exact absurd ((h.mem l n).mp hl) (hf l)
    simp [isFree, h1, h2]

/-- Replace the sequence of list `l`. -/
def set (σ : Nat → List Nat) (l : Nat) (xs : List Nat) : Nat → List Nat :=
  fun k => if k = l then xs else σ k

@[simp] theorem set_same (σ : Nat → List Nat) (l : Nat) (xs : List Nat) : set σ l xs l = xs := by
  simp [set]

/-- Insertion of `n` between the neighbours `p` and `q`. -/
def insertBetween (m : Mem) (l : Nat) (p q : Ptr) (n : Nat) : Mem where
  list := upd m.list (.node n) (some l)
  next := upd (upd m.next (.node n) (some q)) p (some (.node n))
  prev := upd (upd m.prev (.node n) (some p)) q (some (.node n))

theorem map_node_nodup {xs : List Nat} (h : xs.Nodup) : (xs.map Ptr.node).Nodup := by
  induction xs with
  | nil => simp
  | cons a xs ih =>
    simp only [List.nodup_cons, List.map_cons] at h ⊢
    exact ⟨by simpa using h.1, ih h.2⟩

theorem rep_insert {m σ} (h : Rep m σ) {l n : Nat} (a b : List Nat) (hab : σ l = a ++ b)
    (hn : ∀ k, n ∉ σ k) (p q : Ptr)
    (hp : (Ptr.head l :: a.map .node).getLast? = some p)
    (hq : (b.map Ptr.node ++ [Ptr.head l]).head? = some q) :
    m.next p = some q ∧ m.prev q = some p ∧
    Rep (insertBetween m l p q n) (set σ l (a ++ n :: b)) := by
  have hc := h.chain l
  rw [hab, cyc_split1] at hc
  obtain ⟨u, hu⟩ : ∃ u, Ptr.head l :: a.map .node = u ++ [p] :=
    List.getLast?_eq_some_iff.mp hp
  obtain ⟨v, hv⟩ : ∃ v, b.map Ptr.node ++ [.head l] = q :: v := by
    cases hx : b.map Ptr.node ++ [.head l] with
    | nil => simp at hx
    | cons y v => rw [hx] at hq; simp at hq; subst hq; exact ⟨v, rfl⟩
  rw [hu, hv, List.append_assoc] at hc
  simp only [List.cons_append, List.nil_append] at hc
  rw [chain_append] at hc
  obtain ⟨c1, ⟨l1, l2⟩, c2⟩ := hc
  have hnd := h.nodup l
  rw [hab] at hnd
  -- where p and q may occur
  have hnd1 : (u ++ [p]).Nodup := by
    rw [← hu]; simp only [List.nodup_cons]
    exact ⟨by simp, map_node_nodup (List.nodup_append.mp hnd).1⟩
  have hpu : p ∉ u := by
    intro hx; have := (List.nodup_append.mp hnd1).2.2 p hx p (by simp); exact this rfl
  have hnd2 : (q :: v).Nodup := by
    rw [← hv, List.nodup_append]
    exact ⟨map_node_nodup (List.nodup_append.mp hnd).2.1, by simp, by simp⟩
  have hqv : q ∉ v := (List.nodup_cons.mp hnd2).1
  have hab' : ∀ x ∈ a, ∀ y ∈ b, x ≠ y := (List.nodup_append.mp hnd).2.2
  have hnab : n ∉ a ∧ n ∉ b := by
    have := hn l; rw [hab] at this; simpa using this
  -- memberships
  have mu : ∀ x, x ∈ u ++ [p] → x = .head l ∨ ∃ i ∈ a, x = .node i := by
    intro x hx; rw [← hu] at hx; simp at hx
    rcases hx with rfl | ⟨i, hi, rfl⟩
    · exact Or.inl rfl
    · exact Or.inr ⟨i, hi, rfl⟩
  have mtl : ∀ x, x ∈ (u ++ [p]).tail → ∃ i ∈ a, x = .node i := by
    intro x hx; rw [← hu] at hx; simp at hx
    obtain ⟨i, hi, rfl⟩ := hx; exact ⟨i, hi, rfl⟩
  have mv : ∀ x, x ∈ q :: v → x = .head l ∨ ∃ i ∈ b, x = .node i := by
    intro x hx; rw [← hv] at hx; simp at hx
    rcases hx with ⟨i, hi, rfl⟩ | rfl
    · exact Or.inr ⟨i, hi, rfl⟩
    · exact Or.inl rfl
  have mvd : ∀ x, x ∈ (q :: v).dropLast → ∃ i ∈ b, x = .node i := by
    intro x hx; rw [← hv] at hx; simp at hx
    obtain ⟨i, hi, rfl⟩ := hx; exact ⟨i, hi, rfl⟩
  have pn : p ≠ .node n := by
    rcases mu p (by simp) with rfl | ⟨i, hi, rfl⟩
    · simp
    · intro e; simp at e; exact hnab.1 (e ▸ hi)
  have qn : q ≠ .node n := by
    rcases mv q (by simp) with rfl | ⟨i, hi, rfl⟩
    · simp
    · intro e; simp at e; exact hnab.2 (e ▸ hi)
  refine ⟨l1, l2, ?_, ?_, ?_, ?_⟩
  · intro k
    by_cases hk : k = l
    · subst hk
      rw [set_same]
      have e : cyc k (a ++ n :: b) = u ++ p :: .node n :: q :: v := by
        rw [cyc_split1, hu, List.map_cons, List.cons_append, hv]; simp
      rw [e, chain_append]
      refine ⟨?_, ⟨?_, ?_⟩, ⟨?_, ?_⟩, ?_⟩
      · apply chain_congr _ c1
        · intro x hx
          simp at hx
          have h1 : x ≠ p := fun e => hpu (e ▸ hx)
          have h2 : x ≠ .node n := by
            rcases mu x (by simp [hx]) with rfl | ⟨i, hi, rfl⟩
            · simp
            · intro e; simp at e; exact hnab.1 (e ▸ hi)
          simp only [insertBetween]
          rw [upd_other _ _ h1, upd_other _ _ h2]
        · intro x hx
          obtain ⟨i, hi, rfl⟩ := mtl x hx
          have h1 : Ptr.node i ≠ q := by
            rcases mv q (by simp) with rfl | ⟨j, hj, rfl⟩
            · simp
            · intro e; simp at e; exact hab' i hi j hj e
          have h2 : Ptr.node i ≠ .node n := by intro e; simp at e; exact hnab.1 (e ▸ hi)
          simp only [insertBetween]
          rw [upd_other _ _ h1, upd_other _ _ h2]
      · simp [insertBetween]
      · simp only [insertBetween]; rw [upd_other _ _ qn.symm]; simp
      · simp only [insertBetween]; rw [upd_other _ _ pn.symm]; simp
      · simp [insertBetween]
      · apply chain_congr _ c2
        · intro x hx
          obtain ⟨i, hi, rfl⟩ := mvd x hx
          have h1 : Ptr.node i ≠ p := by
            rcases mu p (by simp) with rfl | ⟨j, hj, rfl⟩
            · simp
            · intro e; simp at e; exact hab' j hj i hi e.symm
          have h2 : Ptr.node i ≠ .node n := by intro e; simp at e; exact hnab.2 (e ▸ hi)
          simp only [insertBetween]
          rw [upd_other _ _ h1, upd_other _ _ h2]
        · intro x hx
          simp at hx
          have h1 : x ≠ q := fun e => hqv (e ▸ hx)
          have h2 : x ≠ .node n := by
            rcases mv x (by simp [hx]) with rfl | ⟨i, hi, rfl⟩
            · simp
            · intro e; simp at e; exact hnab.2 (e ▸ hi)
          simp only [insertBetween]
          rw [upd_other _ _ h1, upd_other _ _ h2]
    · -- another list
      have hs : set σ l (a ++ n :: b) k = σ k := by simp [set, hk]
      rw [hs]
      have notin : ∀ x ∈ cyc k (σ k), x ≠ p ∧ x ≠ q ∧ x ≠ .node n := by
        intro x hx
        simp [cyc] at hx
        have hx' : x = .head k ∨ ∃ i ∈ σ k, x = .node i := by
          rcases hx with rfl | ⟨i, hi, rfl⟩ | rfl
          · exact Or.inl rfl
          · exact Or.inr ⟨i, hi, rfl⟩
          · exact Or.inl rfl
        rcases hx' with rfl | ⟨i, hi, rfl⟩
        · refine ⟨?_, ?_, by simp⟩
          · rcases mu p (by simp) with rfl | ⟨j, hj, rfl⟩ <;> simp [hk]
          · rcases mv q (by simp) with rfl | ⟨j, hj, rfl⟩ <;> simp [hk]
        · refine ⟨?_, ?_, ?_⟩
          · rcases mu p (by simp) with rfl | ⟨j, hj, rfl⟩
            · simp
            · intro e; simp at e; subst e
              exact hk (h.disj hi (by rw [hab]; simp [hj]))
          · rcases mv q (by simp) with rfl | ⟨j, hj, rfl⟩
            · simp
            · intro e; simp at e; subst e
              exact hk (h.disj hi (by rw [hab]; simp [hj]))
          · intro e; simp at e; subst e; exact hn k hi
      apply chain_congr _ (h.chain k)
      · intro x hx
        obtain ⟨h1, h2, h3⟩ := notin x ((List.dropLast_sublist _).subset hx)
        simp only [insertBetween]; rw [upd_other _ _ h1, upd_other _ _ h3]
      · intro x hx
        obtain ⟨h1, h2, h3⟩ := notin x (List.mem_of_mem_tail hx)
        simp only [insertBetween]; rw [upd_other _ _ h2, upd_other _ _ h3]
  · intro k
    by_cases hk : k = l
    · subst hk
      rw [set_same, List.nodup_append]
      obtain ⟨n1, n2, n3⟩ := List.nodup_append.mp hnd
      refine ⟨n1, by simp [n2, hnab.2], ?_⟩
      intro x hx y hy
      simp at hy
      rcases hy with rfl | hy
      · intro e; subst e; exact hnab.1 hx
      · exact n3 x hx y hy
    · simp [set, hk]; exact h.nodup k
  · intro k i
    simp only [insertBetween]
    by_cases hi : i = n
    · subst hi
      simp only [upd_same]
      by_cases hk : k = l
      · subst hk; simp
      · have := hn k
        simp [set, hk, this]; exact fun e => hk e.symm
    · rw [upd_other _ _ (by simpa using hi), h.mem]
      by_cases hk : k = l
      · subst hk; rw [set_same, hab]; simp [hi]
      · simp [set, hk]
  · intro i hi
    have hil : i ∉ a ++ n :: b := by have := hi l; rwa [set_same] at this
    simp at hil
    have hif : ∀ k, i ∉ σ k := by
      intro k
      by_cases hk : k = l
      · subst hk; rw [hab]; simp [hil]
      · have := hi k; simpa [set, hk] using this
    obtain ⟨f1, f2⟩ := h.free i hif
    have hin : Ptr.node i ≠ .node n := by simpa using hil.2.1
    have hip : Ptr.node i ≠ p := by
      rcases mu p (by simp) with rfl | ⟨j, hj, rfl⟩
      · simp
      · intro e; simp at e; exact hil.1 (e ▸ hj)
    have hiq : Ptr.node i ≠ q := by
      rcases mv q (by simp) with rfl | ⟨j, hj, rfl⟩
      · simp
      · intro e; simp at e; exact hil.2.2 (e ▸ hj)
    simp only [insertBetween]
    rw [upd_other _ _ hip, upd_other _ _ hin, upd_other _ _ hiq, upd_other _ _ hin]
    exact ⟨f1, f2⟩

/-- Removal of `n` with neighbours `p` and `q`. -/
def unlink (m : Mem) (p q : Ptr) (n : Nat) : Mem where
  list := upd m.list (.node n) none
  next := upd (upd m.next p (some q)) (.node n) none
  prev := upd (upd m.prev q (some p)) (.node n) none

theorem rep_unlink {m σ} (h : Rep m σ) {l n : Nat} (a b : List Nat) (hab : σ l = a ++ n :: b) :
    ∃ p q, m.next (.node n) = some q ∧ m.prev (.node n) = some p ∧
    p ≠ .node n ∧ q ≠ .node n ∧
    Rep (unlink m p q n) (set σ l (a ++ b)) := by
  have hc := h.chain l
  rw [hab, cyc_split1] at hc
  obtain ⟨p, u, hu⟩ : ∃ p u, Ptr.head l :: a.map .node = u ++ [p] :=
    ⟨_, _, (List.dropLast_concat_getLast (List.cons_ne_nil _ _)).symm⟩
  obtain ⟨q, v, hv⟩ : ∃ q v, b.map Ptr.node ++ [.head l] = q :: v := by
    cases hx : b.map Ptr.node ++ [.head l] with
    | nil => simp at hx
    | cons y v => exact ⟨y, v, rfl⟩
  rw [hu, List.map_cons, List.cons_append, hv, List.append_assoc] at hc
  simp only [List.cons_append, List.nil_append] at hc
  rw [chain_append] at hc
  obtain ⟨c1, ⟨l1, l2⟩, ⟨l3, l4⟩, c2⟩ := hc
  have hnd := h.nodup l
  rw [hab] at hnd
  have hnd' := List.nodup_append.mp hnd
  have hndb := List.nodup_cons.mp hnd'.2.1
  have hnd1 : (u ++ [p]).Nodup := by
    rw [← hu]; simp only [List.nodup_cons]
    exact ⟨by simp, map_node_nodup hnd'.1⟩
  have hpu : p ∉ u := by
    intro hx; have := (List.nodup_append.mp hnd1).2.2 p hx p (by simp); exact this rfl
  have hnd2 : (q :: v).Nodup := by
    rw [← hv, List.nodup_append]
    exact ⟨map_node_nodup hndb.2, by simp, by simp⟩
  have hqv : q ∉ v := (List.nodup_cons.mp hnd2).1
  have hab' : ∀ x ∈ a, ∀ y ∈ b, x ≠ y := fun x hx y hy => hnd'.2.2 x hx y (by simp [hy])
  have hnab : n ∉ a ∧ n ∉ b := ⟨fun hx => hnd'.2.2 n hx n (by simp) rfl, hndb.1⟩
  have mu : ∀ x, x ∈ u ++ [p] → x = .head l ∨ ∃ i ∈ a, x = .node i := by
    intro x hx; rw [← hu] at hx; simp at hx
    rcases hx with rfl | ⟨i, hi, rfl⟩
    · exact Or.inl rfl
    · exact Or.inr ⟨i, hi, rfl⟩
  have mtl : ∀ x, x ∈ (u ++ [p]).tail → ∃ i ∈ a, x = .node i := by
    intro x hx; rw [← hu] at hx; simp at hx
    obtain ⟨i, hi, rfl⟩ := hx; exact ⟨i, hi, rfl⟩
  have mv : ∀ x, x ∈ q :: v → x = .head l ∨ ∃ i ∈ b, x = .node i := by
    intro x hx; rw [← hv] at hx; simp at hx
    rcases hx with ⟨i, hi, rfl⟩ | rfl
    · exact Or.inr ⟨i, hi, rfl⟩
    · exact Or.inl rfl
  have mvd : ∀ x, x ∈ (q :: v).dropLast → ∃ i ∈ b, x = .node i := by
    intro x hx; rw [← hv] at hx; simp at hx
    obtain ⟨i, hi, rfl⟩ := hx; exact ⟨i, hi, rfl⟩
  have pn : p ≠ .node n := by
    rcases mu p (by simp) with rfl | ⟨i, hi, rfl⟩
    · simp
    · intro e; simp at e; exact hnab.1 (e ▸ hi)
  have qn : q ≠ .node n := by
    rcases mv q (by simp) with rfl | ⟨i, hi, rfl⟩
    · simp
    · intro e; simp at e; exact hnab.2 (e ▸ hi)
  refine ⟨p, q, l3, l2, pn, qn, ?_, ?_, ?_, ?_⟩
  · intro k
    by_cases hk : k = l
    · subst hk
      rw [set_same]
      have e : cyc k (a ++ b) = u ++ p :: q :: v := by rw [cyc_split1, hu, hv]; simp
      rw [e, chain_append]
      refine ⟨?_, ⟨?_, ?_⟩, ?_⟩
      · apply chain_congr _ c1
        · intro x hx
          simp at hx
          have h1 : x ≠ p := fun e => hpu (e ▸ hx)
          have h2 : x ≠ .node n := by
            rcases mu x (by simp [hx]) with rfl | ⟨i, hi, rfl⟩
            · simp
            · intro e; simp at e; exact hnab.1 (e ▸ hi)
          simp only [unlink]
          rw [upd_other _ _ h2, upd_other _ _ h1]
        · intro x hx
          obtain ⟨i, hi, rfl⟩ := mtl x hx
          have h1 : Ptr.node i ≠ q := by
            rcases mv q (by simp) with rfl | ⟨j, hj, rfl⟩
            · simp
            · intro e; simp at e; exact hab' i hi j hj e
          have h2 : Ptr.node i ≠ .node n := by intro e; simp at e; exact hnab.1 (e ▸ hi)
          simp only [unlink]
          rw [upd_other _ _ h2, upd_other _ _ h1]
      · simp only [unlink]; rw [upd_other _ _ pn]; simp
      · simp only [unlink]; rw [upd_other _ _ qn]; simp
      · apply chain_congr _ c2
        · intro x hx
          obtain ⟨i, hi, rfl⟩ := mvd x hx
          have h1 : Ptr.node i ≠ p := by
            rcases mu p (by simp) with rfl | ⟨j, hj, rfl⟩
            · simp
            · intro e; simp at e; exact hab' j hj i hi e.symm
          have h2 : Ptr.node i ≠ .node n := by intro e; simp at e; exact hnab.2 (e ▸ hi)
          simp only [unlink]
          rw [upd_other _ _ h2, upd_other _ _ h1]
        · intro x hx
          simp at hx
          have h1 : x ≠ q := fun e => hqv (e ▸ hx)
          have h2 : x ≠ .node n := by
            rcases mv x (by simp [hx]) with rfl | ⟨i, hi, rfl⟩
            · simp
            · intro e; simp at e; exact hnab.2 (e ▸ hi)
          simp only [unlink]
          rw [upd_other _ _ h2, upd_other _ _ h1]
    · have hs : set σ l (a ++ b) k = σ k := by simp [set, hk]
      rw [hs]
      have notin : ∀ x ∈ cyc k (σ k), x ≠ p ∧ x ≠ q ∧ x ≠ .node n := by
        intro x hx
        simp [cyc] at hx
        have hx' : x = .head k ∨ ∃ i ∈ σ k, x = .node i := by
          rcases hx with rfl | ⟨i, hi, rfl⟩ | rfl
          · exact Or.inl rfl
          · exact Or.inr ⟨i, hi, rfl⟩
          · exact Or.inl rfl
        rcases hx' with rfl | ⟨i, hi, rfl⟩
        · refine ⟨?_, ?_, by simp⟩
          · rcases mu p (by simp) with rfl | ⟨j, hj, rfl⟩ <;> simp [hk]
          · rcases mv q (by simp) with rfl | ⟨j, hj, rfl⟩ <;> simp [hk]
        · refine ⟨?_, ?_, ?_⟩
          · rcases mu p (by simp) with rfl | ⟨j, hj, rfl⟩
            · simp
            · intro e; simp at e; subst e
              exact hk (h.disj hi (by rw [hab]; simp [hj]))
          · rcases mv q (by simp) with rfl | ⟨j, hj, rfl⟩
            · simp
            · intro e; simp at e; subst e
              exact hk (h.disj hi (by rw [hab]; simp [hj]))
          · intro e; simp at e; subst e; exact hk (h.disj hi (by rw [hab]; simp))
      apply chain_congr _ (h.chain k)
      · intro x hx
        obtain ⟨h1, h2, h3⟩ := notin x ((List.dropLast_sublist _).subset hx)
        simp only [unlink]; rw [upd_other _ _ h3, upd_other _ _ h1]
      · intro x hx
        obtain ⟨h1, h2, h3⟩ := notin x (List.mem_of_mem_tail hx)
        simp only [unlink]; rw [upd_other _ _ h3, upd_other _ _ h2]
  · intro k
    by_cases hk : k = l
    · subst hk
      rw [set_same, List.nodup_append]
      exact ⟨hnd'.1, hndb.2, hab'⟩
    · simp [set, hk]; exact h.nodup k
  · intro k i
    simp only [unlink]
    by_cases hi : i = n
    · subst hi
      simp only [upd_same]
      by_cases hk : k = l
      · subst hk; simp [hnab]
      · simp [set, hk]; intro hx; exact hk (h.disj hx (by rw [hab]; simp))
    · rw [upd_other _ _ (by simpa using hi), h.mem]
      by_cases hk : k = l
      · subst hk; rw [set_same, hab]; simp [hi]
      · simp [set, hk]
  · intro i hi
    simp only [unlink]
    by_cases hin : i = n
    · subst hin; simp
    · have hil : i ∉ a ++ b := by have := hi l; rwa [set_same] at this
      simp at hil
      have hif : ∀ k, i ∉ σ k := by
        intro k
        by_cases hk : k = l
        · subst hk; rw [hab]; simp [hil, hin]
        · have := hi k; simpa [set, hk] using this
      obtain ⟨f1, f2⟩ := h.free i hif
      have hin : Ptr.node i ≠ .node n := by simpa using hin
      have hip : Ptr.node i ≠ p := by
        rcases mu p (by simp) with rfl | ⟨j, hj, rfl⟩
        · simp
        · intro e; simp at e; exact hil.1 (e ▸ hj)
      have hiq : Ptr.node i ≠ q := by
        rcases mv q (by simp) with rfl | ⟨j, hj, rfl⟩
        · simp
        · intro e; simp at e; exact hil.2 (e ▸ hj)
      rw [upd_other _ _ hin, upd_other _ _ hip, upd_other _ _ hin, upd_other _ _ hiq]
      exact ⟨f1, f2⟩

theorem upd_comm {α : Type} (f : Ptr → α) {p q : Ptr} (v w : α) (h : p ≠ q) :
    upd (upd f p v) q w = upd (upd f q w) p v := by
  funext x; simp only [upd]
  split
  · rename_i e; subst e; rw [if_neg (fun e => h e.symm)]
  · rfl

/-! ### Walking -/

theorem walk_chain (nx pv : Ptr → Option Ptr) (l : Nat) (xs : List Nat) : ∀ (a : Ptr) (fuel : Nat),
    Chain nx pv (a :: (xs.map .node ++ [.head l])) → xs.length < fuel →
    walk nx l fuel (nx a) = some xs := by
  induction xs with
  | nil =>
    intro a fuel h hf
    obtain ⟨f, rfl⟩ : ∃ k, fuel = k + 1 := ⟨fuel - 1, by omega⟩
    simp [Chain] at h
    simp [h, walk]
  | cons x xs ih =>
    intro a fuel h hf
    obtain ⟨f, rfl⟩ : ∃ k, fuel = k + 1 := ⟨fuel - 1, by omega⟩
    simp only [List.map_cons, List.cons_append, Chain] at h
    rw [h.1.1]
    simp only [walk]
    rw [ih (.node x) f h.2 (by simp at hf; omega)]
    rfl

theorem chain_reverse (nx pv : Ptr → Option Ptr) (w : List Ptr) (h : Chain nx pv w) :
    Chain pv nx w.reverse := by
  induction w with
  | nil => trivial
  | cons a w ih =>
    cases w with
    | nil => trivial
    | cons b w =>
      have := ih h.2
      simp only [List.reverse_cons, List.append_assoc, List.cons_append, List.nil_append] at this ⊢
      rw [chain_append]
      exact ⟨this, ⟨h.1.2, h.1.1⟩, trivial⟩

end Gensio.LList
