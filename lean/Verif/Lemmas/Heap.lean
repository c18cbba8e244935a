import Verif.Model.Heap

/-!
# Lemmas about the heap: nodes in the places of a complete binary tree
-/

set_option linter.unusedSimpArgs false

namespace Gensio.Heap

variable {V : Type}

/-- `a i` is the node in place `i` of a complete binary tree with `n` places; place `i` has the children `2 i + 1` and
`2 i + 2`. -/
structure Rep (h : Heap V) (a : Nat → Nat) (n : Nat) : Prop where
  inj : ∀ i j, i < n → j < n → a i = a j → i = j
  left : ∀ i, i < n → h.left (a i) = if 2 * i + 1 < n then some (a (2 * i + 1)) else none
  right : ∀ i, i < n → h.right (a i) = if 2 * i + 2 < n then some (a (2 * i + 2)) else none
  up : ∀ i, i < n → h.up (a i) = if i = 0 then none else some (a ((i - 1) / 2))
  top : h.top = if n = 0 then none else some (a 0)
  last : h.last = if n = 0 then none else some (a (n - 1))

/-! ## Stores -/

theorem setLeft_left (h : Heap V) (p : Nat) (v : Option Nat) (q : Nat) :
    (h.setLeft p v).left q = if q = p then v else h.left q := rfl
theorem setLeft_right (h : Heap V) (p : Nat) (v : Option Nat) : (h.setLeft p v).right = h.right := rfl
theorem setLeft_up (h : Heap V) (p : Nat) (v : Option Nat) : (h.setLeft p v).up = h.up := rfl
theorem setLeft_top (h : Heap V) (p : Nat) (v : Option Nat) : (h.setLeft p v).top = h.top := rfl
theorem setLeft_last (h : Heap V) (p : Nat) (v : Option Nat) : (h.setLeft p v).last = h.last := rfl
theorem setLeft_val (h : Heap V) (p : Nat) (v : Option Nat) : (h.setLeft p v).val = h.val := rfl
theorem setRight_left (h : Heap V) (p : Nat) (v : Option Nat) : (h.setRight p v).left = h.left := rfl
theorem setRight_right (h : Heap V) (p : Nat) (v : Option Nat) (q : Nat) :
    (h.setRight p v).right q = if q = p then v else h.right q := rfl
theorem setRight_up (h : Heap V) (p : Nat) (v : Option Nat) : (h.setRight p v).up = h.up := rfl
theorem setRight_top (h : Heap V) (p : Nat) (v : Option Nat) : (h.setRight p v).top = h.top := rfl
theorem setRight_last (h : Heap V) (p : Nat) (v : Option Nat) : (h.setRight p v).last = h.last := rfl
theorem setRight_val (h : Heap V) (p : Nat) (v : Option Nat) : (h.setRight p v).val = h.val := rfl
theorem setUp_left (h : Heap V) (p : Nat) (v : Option Nat) : (h.setUp p v).left = h.left := rfl
theorem setUp_right (h : Heap V) (p : Nat) (v : Option Nat) : (h.setUp p v).right = h.right := rfl
theorem setUp_up (h : Heap V) (p : Nat) (v : Option Nat) (q : Nat) :
    (h.setUp p v).up q = if q = p then v else h.up q := rfl
theorem setUp_top (h : Heap V) (p : Nat) (v : Option Nat) : (h.setUp p v).top = h.top := rfl
theorem setUp_last (h : Heap V) (p : Nat) (v : Option Nat) : (h.setUp p v).last = h.last := rfl
theorem setUp_val (h : Heap V) (p : Nat) (v : Option Nat) : (h.setUp p v).val = h.val := rfl
theorem moveLast_left (h : Heap V) (o n : Nat) : (h.moveLast o n).left = h.left := by
  simp only [Heap.moveLast]; split <;> rfl
theorem moveLast_right (h : Heap V) (o n : Nat) : (h.moveLast o n).right = h.right := by
  simp only [Heap.moveLast]; split <;> rfl
theorem moveLast_up (h : Heap V) (o n : Nat) : (h.moveLast o n).up = h.up := by
  simp only [Heap.moveLast]; split <;> rfl
theorem moveLast_top (h : Heap V) (o n : Nat) : (h.moveLast o n).top = h.top := by
  simp only [Heap.moveLast]; split <;> rfl
theorem moveLast_last (h : Heap V) (o n : Nat) :
    (h.moveLast o n).last = if h.last = some o then some n else h.last := by
  simp only [Heap.moveLast]; split <;> rfl
theorem moveLast_val (h : Heap V) (o n : Nat) : (h.moveLast o n).val = h.val := by
  simp only [Heap.moveLast]; split <;> rfl

theorem setUpOf_left (h : Heap V) (o : Option Nat) (v : Nat) : (h.setUpOf o v).left = h.left := by cases o <;> rfl
theorem setUpOf_right (h : Heap V) (o : Option Nat) (v : Nat) : (h.setUpOf o v).right = h.right := by cases o <;> rfl
theorem setUpOf_top (h : Heap V) (o : Option Nat) (v : Nat) : (h.setUpOf o v).top = h.top := by cases o <;> rfl
theorem setUpOf_last (h : Heap V) (o : Option Nat) (v : Nat) : (h.setUpOf o v).last = h.last := by cases o <;> rfl
theorem setUpOf_val (h : Heap V) (o : Option Nat) (v : Nat) : (h.setUpOf o v).val = h.val := by cases o <;> rfl

theorem setUpOf_up (h : Heap V) (o : Option Nat) (v q : Nat) :
    (h.setUpOf o v).up q = if o = some q then some v else h.up q := by
  cases o with
  | none => simp [Heap.setUpOf]
  | some p =>
    simp only [Heap.setUpOf, Heap.setUp, upd, Option.some.injEq]
    by_cases e : q = p
    · simp [e]
    · simp [e, Ne.symm e]

theorem relink_up (h : Heap V) (u : Option Nat) (o n : Nat) : (h.relink u o n).up = h.up := by
  cases u with
  | none => rfl
  | some g => simp only [Heap.relink]; split <;> rfl

theorem relink_last (h : Heap V) (u : Option Nat) (o n : Nat) : (h.relink u o n).last = h.last := by
  cases u with
  | none => rfl
  | some g => simp only [Heap.relink]; split <;> rfl

theorem relink_val (h : Heap V) (u : Option Nat) (o n : Nat) : (h.relink u o n).val = h.val := by
  cases u with
  | none => rfl
  | some g => simp only [Heap.relink]; split <;> rfl

theorem relink_top (h : Heap V) (u : Option Nat) (o n : Nat) :
    (h.relink u o n).top = if u = none then some n else h.top := by
  cases u with
  | none => rfl
  | some g => simp only [Heap.relink]; split <;> rfl

theorem relink_left (h : Heap V) (u : Option Nat) (o n q : Nat) :
    (h.relink u o n).left q = if u = some q ∧ h.left q = some o then some n else h.left q := by
  cases u with
  | none => simp [Heap.relink]
  | some g =>
    simp only [Heap.relink]
    by_cases e : q = g
    · subst e
      split
      · rename_i e2; simp [Heap.setLeft, upd, e2]
      · rename_i e2; simp [Heap.setRight, e2]
    · split
      · simp [Heap.setLeft, upd, e, Ne.symm e]
      · simp [Heap.setRight, Ne.symm e]

theorem relink_right (h : Heap V) (u : Option Nat) (o n q : Nat) :
    (h.relink u o n).right q = if u = some q ∧ h.left q ≠ some o then some n else h.right q := by
  cases u with
  | none => simp [Heap.relink]
  | some g =>
    simp only [Heap.relink]
    by_cases e : q = g
    · subst e
      split
      · rename_i e2; simp [Heap.setLeft, e2]
      · rename_i e2; simp [Heap.setRight, upd, e2]
    · split
      · simp [Heap.setLeft, Ne.symm e]
      · simp [Heap.setRight, upd, e, Ne.symm e]

/-- Places `j` and `k` exchanged. -/
def swap (a : Nat → Nat) (j k : Nat) : Nat → Nat := fun i => if i = j then a k else if i = k then a j else a i

theorem swap_inj {a : Nat → Nat} {n j k : Nat} (h : ∀ i j, i < n → j < n → a i = a j → i = j) (hj : j < n) (hk : k < n) :
    ∀ x y, x < n → y < n → swap a j k x = swap a j k y → x = y := by
  intro x y hx hy e
  simp only [swap] at e
  repeat' split at e
  all_goals first
    | omega
    | (have := h _ _ (by assumption) (by assumption) e; omega)

theorem Rep.eq {h : Heap V} {a : Nat → Nat} {n : Nat} (r : Rep h a n) {x y : Nat} (hx : x < n) (hy : y < n) :
    a x = a y ↔ x = y := ⟨r.inj x y hx hy, fun e => e ▸ rfl⟩

theorem Rep.opt {h : Heap V} {a : Nat → Nat} {n : Nat} (r : Rep h a n) {x y : Nat} (hy : y < n) :
    ((if x < n then some (a x) else none) = some (a y)) ↔ x = y := by
  constructor
  · intro e
    split at e
    · rename_i hx; exact r.inj x y hx hy (Option.some.inj e)
    · cases e
  · intro e; subst e; rw [if_pos hy]

theorem Rep.optUp {h : Heap V} {a : Nat → Nat} {n : Nat} (r : Rep h a n) {x y : Nat} (hx : x < n) (hy : y < n) :
    ((if x = 0 then none else some (a ((x - 1) / 2))) = some (a y)) ↔ x ≠ 0 ∧ (x - 1) / 2 = y := by
  constructor
  · intro e
    split at e
    · cases e
    · rename_i h0; exact ⟨h0, r.inj _ y (by omega) hy (Option.some.inj e)⟩
  · intro e; rw [if_neg e.1, e.2]

theorem swapUp_val (h : Heap V) (e p : Nat) : (h.swapUp e p).val = h.val := by
  simp only [Heap.swapUp, setLeft_val, setRight_val, setUp_val, setUpOf_val, relink_val, moveLast_val]
  split <;> simp only [setLeft_val, setRight_val, setUp_val, setUpOf_val]

/-- The pointers around a node `e` and its parent `p` are different nodes. -/
structure Apart (h : Heap V) (e p : Nat) : Prop where
  ne : e ≠ p
  u1 : h.up p ≠ some e
  u2 : h.up p ≠ some p
  l1 : h.left p ≠ some p
  r1 : h.right p ≠ some p
  l2 : h.left e ≠ some e
  r2 : h.right e ≠ some e
  l3 : h.left e ≠ some p
  r3 : h.right e ≠ some p

/-- Follows the stores of a function. -/
macro "stores" : tactic => `(tactic| simp only [setLeft_left, setLeft_right, setLeft_up, setLeft_top, setLeft_last, setRight_left, setRight_right, setRight_up, setRight_top,
      setRight_last, setUp_left, setUp_right, setUp_up, setUp_top, setUp_last, setUpOf_left, setUpOf_right, setUpOf_up, setUpOf_top,
      setUpOf_last, relink_left, relink_right, relink_up, relink_top, relink_last, moveLast_left, moveLast_right, moveLast_up,
      moveLast_top, moveLast_last])

theorem swapUp_left {h : Heap V} {e p : Nat} (d : Apart h e p) (q : Nat) :
    (h.swapUp e p).left q = if q = p then h.left e else if q = e then (if h.left p = some e then some p else h.left p)
      else if h.up p = some q ∧ h.left q = some p then some e else h.left q := by
  have ne := d.ne
  by_cases hc : h.left p = some e
  · simp only [Heap.swapUp, hc, if_true]
    stores
    simp only [if_neg ne, if_neg (Ne.symm ne), if_true, d.r1, if_false]
    by_cases h1 : q = p
    · simp [h1, d.l3, d.r3]
    · by_cases h2 : q = e
      · subst h2; simp [h1, d.u1, d.l2, d.r2]
      · by_cases h3 : h.right e = some q <;> by_cases h4 : h.left e = some q <;> simp [h1, h2, h3, h4]
  · simp only [Heap.swapUp, hc, if_false]
    stores
    simp only [if_neg ne, if_neg (Ne.symm ne), if_true, d.l1, if_false]
    by_cases h1 : q = p
    · simp [h1, d.l3, d.r3]
    · by_cases h2 : q = e
      · subst h2; simp [h1, d.u1, d.l2, d.r2]
      · by_cases h3 : h.right e = some q <;> by_cases h4 : h.left e = some q <;> simp [h1, h2, h3, h4]

theorem swapUp_right {h : Heap V} {e p : Nat} (d : Apart h e p) (q : Nat) :
    (h.swapUp e p).right q = if q = p then h.right e else if q = e then (if h.left p = some e then h.right p else some p)
      else if h.up p = some q ∧ h.left q ≠ some p then some e else h.right q := by
  have ne := d.ne
  by_cases hc : h.left p = some e
  · simp only [Heap.swapUp, hc, if_true]
    stores
    simp only [if_neg ne, if_neg (Ne.symm ne), if_true, d.r1, if_false]
    by_cases h1 : q = p
    · simp [h1, d.l3, d.r3]
    · by_cases h2 : q = e
      · subst h2; simp [h1, d.u1, d.l2, d.r2]
      · by_cases h3 : h.right e = some q <;> by_cases h4 : h.left e = some q <;> simp [h1, h2, h3, h4]
  · simp only [Heap.swapUp, hc, if_false]
    stores
    simp only [if_neg ne, if_neg (Ne.symm ne), if_true, d.l1, if_false]
    by_cases h1 : q = p
    · simp [h1, d.l3, d.r3]
    · by_cases h2 : q = e
      · subst h2; simp [h1, d.u1, d.l2, d.r2]
      · by_cases h3 : h.right e = some q <;> by_cases h4 : h.left e = some q <;> simp [h1, h2, h3, h4]

theorem swapUp_up {h : Heap V} {e p : Nat} (d : Apart h e p) (q : Nat) :
    (h.swapUp e p).up q = if h.left e = some q ∨ h.right e = some q then some p else if q = p then some e
      else if q = e then h.up p else if (if h.left p = some e then h.right p else h.left p) = some q then some e else h.up q := by
  have ne := d.ne
  by_cases hc : h.left p = some e
  · simp only [Heap.swapUp, hc, if_true]
    stores
    simp only [if_neg ne, if_neg (Ne.symm ne), if_true, d.r1, if_false]
    by_cases h1 : q = p
    · simp [h1, d.l3, d.r3]
    · by_cases h2 : q = e
      · subst h2; simp [h1, d.u1, d.l2, d.r2]
      · by_cases h3 : h.right e = some q <;> by_cases h4 : h.left e = some q <;> simp [h1, h2, h3, h4]
  · simp only [Heap.swapUp, hc, if_false]
    stores
    simp only [if_neg ne, if_neg (Ne.symm ne), if_true, d.l1, if_false]
    by_cases h1 : q = p
    · simp [h1, d.l3, d.r3]
    · by_cases h2 : q = e
      · subst h2; simp [h1, d.u1, d.l2, d.r2]
      · by_cases h3 : h.right e = some q <;> by_cases h4 : h.left e = some q <;> simp [h1, h2, h3, h4]

theorem swapUp_top {h : Heap V} {e p : Nat} (d : Apart h e p) :
    (h.swapUp e p).top = if h.up p = none then some e else h.top := by
  have ne := d.ne
  by_cases hc : h.left p = some e
  · simp only [Heap.swapUp, hc, if_true]
    stores
    simp only [if_neg ne, if_neg (Ne.symm ne), if_true, d.r1, if_false]
  · simp only [Heap.swapUp, hc, if_false]
    stores
    simp only [if_neg ne, if_neg (Ne.symm ne), if_true, d.l1, if_false]

theorem swapUp_last (h : Heap V) (e p : Nat) :
    (h.swapUp e p).last = if h.last = some e then some p else h.last := by
  by_cases hc : h.left p = some e
  · simp only [Heap.swapUp, hc, if_true]
    stores
  · simp only [Heap.swapUp, hc, if_false]
    stores

/-- Closes a goal about places. -/
macro "places " a:ident : tactic => `(tactic| (
  repeat' split
  all_goals first
    | with_reducible rfl
    | omega
    | (exfalso; omega)
    | (refine congrArg (fun z => some ($a z)) ?_; omega)))

theorem Rep.apart {h : Heap V} {a : Nat → Nat} {n k j : Nat} (r : Rep h a n) (hk : k < n) (h0 : 0 < k)
    (hjd : (k - 1) / 2 = j) : Apart h (a k) (a j) := by
  have hj : j < n := by omega
  refine ⟨?_, ?_, ?_, ?_, ?_, ?_, ?_, ?_, ?_⟩
  · rw [Ne, r.eq hk hj]; omega
  · rw [r.up j hj, Ne, r.optUp hj hk]; omega
  · rw [r.up j hj, Ne, r.optUp hj hj]; omega
  · rw [r.left j hj, Ne, r.opt hj]; omega
  · rw [r.right j hj, Ne, r.opt hj]; omega
  · rw [r.left k hk, Ne, r.opt hk]; omega
  · rw [r.right k hk, Ne, r.opt hk]; omega
  · rw [r.left k hk, Ne, r.opt hj]; omega
  · rw [r.right k hk, Ne, r.opt hj]; omega

theorem swapUp_rep {h : Heap V} {a : Nat → Nat} {n k j : Nat} (r : Rep h a n) (hk : k < n) (h0 : 0 < k)
    (hjd : (k - 1) / 2 = j) : Rep (h.swapUp (a k) (a j)) (swap a j k) n := by
  have hj : j < n := by omega
  have d := r.apart hk h0 hjd
  have hL : h.left (a j) = some (a k) ↔ 2 * j + 1 = k := by rw [r.left j hj, r.opt hk]
  have hs : ∀ i, i < n → ∃ x, x < n ∧ swap a j k i = a x ∧ (x = k ∧ i = j ∨ x = j ∧ i = k ∨ x = i ∧ i ≠ j ∧ i ≠ k) := by
    intro i hi
    simp only [swap]
    split
    · exact ⟨k, hk, rfl, by omega⟩
    · split
      · exact ⟨j, hj, rfl, by omega⟩
      · exact ⟨i, hi, rfl, by omega⟩
  refine ⟨swap_inj r.inj hj hk, ?_, ?_, ?_, ?_, ?_⟩
  · intro i hi
    obtain ⟨x, hx, e, hix⟩ := hs i hi
    rw [e, swapUp_left d]
    simp only [hL, r.eq hx hj, r.eq hx hk, r.up j hj, r.optUp hj hx, r.left x hx, r.opt hj, r.opt hk, r.left k hk, r.left j hj, swap]
    rcases hix with ⟨rfl, e2⟩ | ⟨rfl, e2⟩ | ⟨rfl, h1, h2⟩ <;> places a
  · intro i hi
    obtain ⟨x, hx, e, hix⟩ := hs i hi
    rw [e, swapUp_right d]
    simp only [hL, r.eq hx hj, r.eq hx hk, r.up j hj, r.optUp hj hx, r.left x hx, Ne, r.opt hj, r.right k hk, r.right j hj,
      r.right x hx, r.opt hk, swap]
    rcases hix with ⟨rfl, e2⟩ | ⟨rfl, e2⟩ | ⟨rfl, h1, h2⟩ <;> places a
  · intro i hi
    obtain ⟨x, hx, e, hix⟩ := hs i hi
    rw [e, swapUp_up d]
    have hsib : ((if 2 * j + 1 = k then h.right (a j) else h.left (a j)) = some (a x))
        ↔ (if 2 * j + 1 = k then 2 * j + 2 else 2 * j + 1) = x := by
      split
      · rw [r.right j hj, r.opt hx]
      · rw [r.left j hj, r.opt hx]
    simp only [hL, hsib, r.eq hx hj, r.eq hx hk, r.up j hj, r.up x hx, r.left k hk, r.right k hk, r.opt hx, swap]
    rcases hix with ⟨rfl, e2⟩ | ⟨rfl, e2⟩ | ⟨rfl, h1, h2⟩ <;> places a
  · have : n ≠ 0 := by omega
    rw [swapUp_top d, r.top, r.up j hj]
    by_cases hz : j = 0
    · simp [hz, swap, this]
    · simp only [hz, if_false, swap, this, reduceCtorEq]
      places a
  · rw [swapUp_last, r.last]
    simp only [swap]
    have : n ≠ 0 := by omega
    simp only [this, if_false, Option.some.injEq, r.eq (show n - 1 < n by omega) hk]
    places a

theorem swap_at {a : Nat → Nat} {n j k : Nat} (hj : j < n) (hk : k < n) : ∀ i, i < n →
    ∃ x, x < n ∧ swap a j k i = a x ∧ (x = k ∧ i = j ∨ x = j ∧ i = k ∨ x = i ∧ i ≠ j ∧ i ≠ k) := by
  intro i hi
  simp only [swap]
  split
  · exact ⟨k, hk, rfl, by omega⟩
  · split
    · exact ⟨j, hj, rfl, by omega⟩
    · exact ⟨i, hi, rfl, by omega⟩

theorem swapLeft_left {h : Heap V} {c p : Nat} (_ : Apart h c p) (q : Nat) :
    (h.swapLeft p c).left q = if q = p then h.left c else if q = c then some p
      else if h.up p = some q ∧ h.left q = some p then some c else h.left q := by
  simp only [Heap.swapLeft]
  stores

theorem swapLeft_right {h : Heap V} {c p : Nat} (d : Apart h c p) (q : Nat) :
    (h.swapLeft p c).right q = if q = p then h.right c else if q = c then h.right p
      else if h.up p = some q ∧ h.left q ≠ some p then some c else h.right q := by
  have ne := d.ne
  simp only [Heap.swapLeft]
  stores
  simp only [if_neg ne, if_neg (Ne.symm ne), if_true, if_false, d.u1, d.u2, false_and]

theorem swapLeft_up {h : Heap V} {c p : Nat} (d : Apart h c p) (q : Nat) :
    (h.swapLeft p c).up q = if h.left c = some q ∨ h.right c = some q then some p else if h.right p = some q then some c else if q = p then some c
      else if q = c then h.up p else h.up q := by
  have ne := d.ne
  simp only [Heap.swapLeft]
  stores
  simp only [if_neg ne, if_neg (Ne.symm ne), if_true, if_false, d.u1, d.u2, false_and]
  by_cases h1 : q = p
  · simp [h1, d.l3, d.r3, d.u2]
  · by_cases h2 : q = c
    · subst h2; simp [h1, d.u1, d.l2, d.r2]
    · by_cases h3 : h.right c = some q <;> by_cases h4 : h.left c = some q <;> simp [h1, h2, h3, h4]

theorem swapLeft_top (h : Heap V) (c p : Nat) :
    (h.swapLeft p c).top = if h.up p = none then some c else h.top := by
  simp only [Heap.swapLeft]
  stores

theorem swapLeft_last (h : Heap V) (c p : Nat) :
    (h.swapLeft p c).last = if h.last = some c then some p else h.last := by
  simp only [Heap.swapLeft]
  stores

theorem swapLeft_val (h : Heap V) (c p : Nat) : (h.swapLeft p c).val = h.val := by
  simp only [Heap.swapLeft, setLeft_val, setRight_val, setUp_val, setUpOf_val, relink_val, moveLast_val]

theorem swapLeft_rep {h : Heap V} {a : Nat → Nat} {n k j : Nat} (r : Rep h a n) (hk : k < n)
    (hjk : k = 2 * j + 1) : Rep (h.swapLeft (a j) (a k)) (swap a j k) n := by
  have hj : j < n := by omega
  have d : Apart h (a k) (a j) := r.apart hk (by omega) (by omega)
  refine ⟨swap_inj r.inj hj hk, ?_, ?_, ?_, ?_, ?_⟩
  · intro i hi
    obtain ⟨x, hx, e, hix⟩ := swap_at (a := a) hj hk i hi
    rw [e, swapLeft_left d]
    simp only [r.eq hx hj, r.eq hx hk, r.up j hj, r.optUp hj hx, r.left x hx, r.opt hj, r.opt hk, r.left k hk, r.left j hj, swap]
    rcases hix with ⟨rfl, e2⟩ | ⟨rfl, e2⟩ | ⟨rfl, h1, h2⟩ <;> places a
  · intro i hi
    obtain ⟨x, hx, e, hix⟩ := swap_at (a := a) hj hk i hi
    rw [e, swapLeft_right d]
    simp only [r.eq hx hj, r.eq hx hk, r.up j hj, r.optUp hj hx, r.left x hx, Ne, r.opt hj, r.right k hk, r.right j hj,
      r.right x hx, r.opt hk, swap]
    rcases hix with ⟨rfl, e2⟩ | ⟨rfl, e2⟩ | ⟨rfl, h1, h2⟩ <;> places a
  · intro i hi
    obtain ⟨x, hx, e, hix⟩ := swap_at (a := a) hj hk i hi
    rw [e, swapLeft_up d]
    simp only [r.eq hx hj, r.eq hx hk, r.up j hj, r.up x hx, r.left k hk, r.right k hk, r.right j hj, r.opt hx, swap]
    rcases hix with ⟨rfl, e2⟩ | ⟨rfl, e2⟩ | ⟨rfl, h1, h2⟩ <;> places a
  · have : n ≠ 0 := by omega
    rw [swapLeft_top, r.top, r.up j hj]
    by_cases hz : j = 0
    · simp [hz, swap, this]
    · simp only [hz, if_false, swap, this, reduceCtorEq]
      places a
  · rw [swapLeft_last, r.last]
    simp only [swap]
    have : n ≠ 0 := by omega
    simp only [this, if_false, Option.some.injEq, r.eq (show n - 1 < n by omega) hk]
    places a

theorem swapRight_left {h : Heap V} {c p : Nat} (d : Apart h c p) (q : Nat) :
    (h.swapRight p c).left q = if q = p then h.left c else if q = c then h.left p
      else if h.up p = some q ∧ h.left q = some p then some c else h.left q := by
  have ne := d.ne
  simp only [Heap.swapRight]
  stores
  simp only [if_neg ne, if_neg (Ne.symm ne), if_true, if_false, d.u1, d.u2, false_and]

theorem swapRight_right {h : Heap V} {c p : Nat} (_ : Apart h c p) (q : Nat) :
    (h.swapRight p c).right q = if q = p then h.right c else if q = c then some p
      else if h.up p = some q ∧ h.left q ≠ some p then some c else h.right q := by
  simp only [Heap.swapRight]
  stores

theorem swapRight_up {h : Heap V} {c p : Nat} (d : Apart h c p) (q : Nat) :
    (h.swapRight p c).up q = if h.left c = some q ∨ h.right c = some q then some p else if h.left p = some q then some c else if q = p then some c
      else if q = c then h.up p else h.up q := by
  have ne := d.ne
  simp only [Heap.swapRight]
  stores
  simp only [if_neg ne, if_neg (Ne.symm ne), if_true, if_false, d.u1, d.u2, false_and]
  by_cases h1 : q = p
  · simp [h1, d.l3, d.r3, d.u2]
  · by_cases h2 : q = c
    · subst h2; simp [h1, d.u1, d.l2, d.r2]
    · by_cases h3 : h.right c = some q <;> by_cases h4 : h.left c = some q <;> simp [h1, h2, h3, h4]

theorem swapRight_top (h : Heap V) (c p : Nat) :
    (h.swapRight p c).top = if h.up p = none then some c else h.top := by
  simp only [Heap.swapRight]
  stores

theorem swapRight_last (h : Heap V) (c p : Nat) :
    (h.swapRight p c).last = if h.last = some c then some p else h.last := by
  simp only [Heap.swapRight]
  stores

theorem swapRight_val (h : Heap V) (c p : Nat) : (h.swapRight p c).val = h.val := by
  simp only [Heap.swapRight, setLeft_val, setRight_val, setUp_val, setUpOf_val, relink_val, moveLast_val]

theorem swapRight_rep {h : Heap V} {a : Nat → Nat} {n k j : Nat} (r : Rep h a n) (hk : k < n)
    (hjk : k = 2 * j + 2) : Rep (h.swapRight (a j) (a k)) (swap a j k) n := by
  have hj : j < n := by omega
  have d : Apart h (a k) (a j) := r.apart hk (by omega) (by omega)
  refine ⟨swap_inj r.inj hj hk, ?_, ?_, ?_, ?_, ?_⟩
  · intro i hi
    obtain ⟨x, hx, e, hix⟩ := swap_at (a := a) hj hk i hi
    rw [e, swapRight_left d]
    simp only [r.eq hx hj, r.eq hx hk, r.up j hj, r.optUp hj hx, r.left x hx, r.opt hj, r.opt hk, r.left k hk, r.left j hj, swap]
    rcases hix with ⟨rfl, e2⟩ | ⟨rfl, e2⟩ | ⟨rfl, h1, h2⟩ <;> places a
  · intro i hi
    obtain ⟨x, hx, e, hix⟩ := swap_at (a := a) hj hk i hi
    rw [e, swapRight_right d]
    simp only [r.eq hx hj, r.eq hx hk, r.up j hj, r.optUp hj hx, r.left x hx, Ne, r.opt hj, r.right k hk, r.right j hj,
      r.right x hx, r.opt hk, swap]
    rcases hix with ⟨rfl, e2⟩ | ⟨rfl, e2⟩ | ⟨rfl, h1, h2⟩ <;> places a
  · intro i hi
    obtain ⟨x, hx, e, hix⟩ := swap_at (a := a) hj hk i hi
    rw [e, swapRight_up d]
    simp only [r.eq hx hj, r.eq hx hk, r.up j hj, r.up x hx, r.left k hk, r.right k hk, r.left j hj, r.opt hx, swap]
    rcases hix with ⟨rfl, e2⟩ | ⟨rfl, e2⟩ | ⟨rfl, h1, h2⟩ <;> places a
  · have : n ≠ 0 := by omega
    rw [swapRight_top, r.top, r.up j hj]
    by_cases hz : j = 0
    · simp [hz, swap, this]
    · simp only [hz, if_false, swap, this, reduceCtorEq]
      places a
  · rw [swapRight_last, r.last]
    simp only [swap]
    have : n ≠ 0 := by omega
    simp only [this, if_false, Option.some.injEq, r.eq (show n - 1 < n by omega) hk]
    places a

/-! ## The order of the keys -/

/-- What `heap_cmp_key` has to be: a comparison of a total order in which different keys may be equal. -/
structure Total (cmp : V → V → Int) : Prop where
  anti : ∀ x y, cmp x y < 0 ↔ cmp y x > 0
  trans : ∀ x y z, cmp x y ≤ 0 → cmp y z ≤ 0 → cmp x z ≤ 0

theorem Total.le {cmp : V → V → Int} (t : Total cmp) {x y : V} (h : ¬ cmp x y < 0) : cmp y x ≤ 0 := by
  rw [t.anti] at h; omega

theorem Total.le_of_gt {cmp : V → V → Int} (t : Total cmp) {x y : V} (h : cmp x y > 0) : cmp y x ≤ 0 := by
  have := (t.anti y x).mpr h; omega

/-- Every node but the one in place `k` is not before its parent, and the children of `k` are not before the parent of
`k`. -/
structure Ord (cmp : V → V → Int) (f : Nat → V) (n k : Nat) : Prop where
  par : ∀ i, i < n → i ≠ 0 → i ≠ k → cmp (f ((i - 1) / 2)) (f i) ≤ 0
  skip : ∀ i, i < n → i ≠ 0 → (i - 1) / 2 = k → k ≠ 0 → cmp (f ((k - 1) / 2)) (f i) ≤ 0

/-- All nodes are in order. -/
def Sorted (cmp : V → V → Int) (f : Nat → V) (n : Nat) : Prop := ∀ i, i < n → i ≠ 0 → cmp (f ((i - 1) / 2)) (f i) ≤ 0

theorem Sorted.min {cmp : V → V → Int} (t : Total cmp) {f : Nat → V} {n : Nat} (h : Sorted cmp f n) :
    ∀ i, i < n → cmp (f 0) (f i) ≤ 0 := by
  intro i
  induction i using Nat.strongRecOn with
  | ind i ih =>
    intro hi
    by_cases h0 : i = 0
    · subst h0
      rcases Int.lt_or_le 0 (cmp (f 0) (f 0)) with g | g
      · have := (t.anti (f 0) (f 0)).mpr g; omega
      · exact g
    · exact t.trans _ _ _ (ih ((i - 1) / 2) (by omega) (by omega)) (h i hi h0)

/-- The places hold the same nodes. -/
def Same (a b : Nat → Nat) (n : Nat) : Prop := ∀ p, (∃ i, i < n ∧ a i = p) ↔ ∃ i, i < n ∧ b i = p

theorem Same.refl (a : Nat → Nat) (n : Nat) : Same a a n := fun _ => Iff.rfl
theorem Same.trans {a b c : Nat → Nat} {n : Nat} (h : Same a b n) (g : Same b c n) : Same a c n :=
  fun p => (h p).trans (g p)

theorem Same.swap {a : Nat → Nat} {n j k : Nat} (hj : j < n) (hk : k < n) : Same a (swap a j k) n := by
  intro p
  constructor
  · rintro ⟨i, hi, rfl⟩
    by_cases h1 : i = j
    · exact ⟨k, hk, by simp only [Heap.swap]; subst h1; split <;> simp_all⟩
    · by_cases h2 : i = k
      · exact ⟨j, hj, by simp [Heap.swap, h2]⟩
      · exact ⟨i, hi, by simp [Heap.swap, h1, h2]⟩
  · rintro ⟨i, hi, rfl⟩
    obtain ⟨x, hx, e, _⟩ := swap_at (a := a) hj hk i hi
    exact ⟨x, hx, e.symm⟩

/-- `send_up` puts the nodes in order and keeps them. -/
theorem sendUp_spec {cmp : V → V → Int} (t : Total cmp) : ∀ (fuel : Nat) {h : Heap V} {a : Nat → Nat} {n k : Nat},
    Rep h a n → k < n → Ord cmp (fun i => h.val (a i)) n k → k < fuel →
    ∃ h' b, h.sendUp cmp fuel (a k) = some h' ∧ Rep h' b n ∧ Same a b n ∧ h'.val = h.val
      ∧ Sorted cmp (fun i => h.val (b i)) n
  | 0, _, _, _, _, _, _, _, hf => absurd hf (Nat.not_lt_zero _)
  | fuel + 1, h, a, n, k, r, hk, o, hf => by
    rw [Heap.sendUp, r.up k hk]
    by_cases h0 : k = 0
    · rw [if_pos h0]
      exact ⟨h, a, rfl, r, Same.refl a n, rfl, fun i hi hi0 => o.par i hi hi0 (by omega)⟩
    · rw [if_neg h0]
      simp only
      split
      · rename_i hlt
        have hj : (k - 1) / 2 < n := by omega
        have r' := swapUp_rep r hk (by omega) rfl
        have ea : swap a ((k - 1) / 2) k ((k - 1) / 2) = a k := by simp [swap]
        have hv : ∀ i, (h.swapUp (a k) (a ((k - 1) / 2))).val (swap a ((k - 1) / 2) k i)
            = if i = (k - 1) / 2 then h.val (a k) else if i = k then h.val (a ((k - 1) / 2)) else h.val (a i) := by
          intro i
          rw [swapUp_val]
          simp only [swap]
          repeat' split
          all_goals rfl
        have o' : Ord cmp (fun i => (h.swapUp (a k) (a ((k - 1) / 2))).val (swap a ((k - 1) / 2) k i)) n ((k - 1) / 2) := by
          refine ⟨fun i hi hi0 hij => ?_, fun i hi hi0 hij hj0 => ?_⟩
          · simp only [hv, if_neg hij]
            by_cases hik : i = k
            · subst hik
              rw [if_pos rfl, if_pos rfl]
              omega
            · rw [if_neg hik]
              by_cases hp : (i - 1) / 2 = (k - 1) / 2
              · rw [if_pos hp]
                have := o.par i hi hi0 hik
                simp only [hp] at this
                exact t.trans _ _ _ (by omega) this
              · rw [if_neg hp]
                by_cases hp2 : (i - 1) / 2 = k
                · rw [if_pos hp2]
                  exact o.skip i hi hi0 hp2 h0
                · rw [if_neg hp2]
                  exact o.par i hi hi0 hik
          · have h1 : ((k - 1) / 2 - 1) / 2 ≠ (k - 1) / 2 := by omega
            have h2 : ((k - 1) / 2 - 1) / 2 ≠ k := by omega
            have h3 : i ≠ (k - 1) / 2 := by omega
            simp only [hv, if_neg h1, if_neg h2, if_neg h3]
            have hg := o.par ((k - 1) / 2) hj hj0 (by omega)
            by_cases hik : i = k
            · rw [if_pos hik]; exact hg
            · rw [if_neg hik]
              have := o.par i hi hi0 hik
              simp only [hij] at this
              exact t.trans _ _ _ hg this
        obtain ⟨h', b, e1, e2, e3, e4, e5⟩ := sendUp_spec t fuel r' hj o' (by omega)
        rw [ea] at e1
        refine ⟨h', b, e1, e2, (Same.swap hj hk).trans e3, by rw [e4, swapUp_val], ?_⟩
        rw [swapUp_val] at e5
        exact e5
      · rename_i hge
        refine ⟨h, a, rfl, r, Same.refl a n, rfl, fun i hi hi0 => ?_⟩
        by_cases hik : i = k
        · subst hik; exact t.le hge
        · exact o.par i hi hi0 hik

/-- Only the children of place `k` may be before it. -/
structure OrdDown (cmp : V → V → Int) (f : Nat → V) (n k : Nat) : Prop where
  par : ∀ i, i < n → i ≠ 0 → (i - 1) / 2 ≠ k → cmp (f ((i - 1) / 2)) (f i) ≤ 0
  skip : ∀ i, i < n → i ≠ 0 → (i - 1) / 2 = k → k ≠ 0 → cmp (f ((k - 1) / 2)) (f i) ≤ 0

/-- The effect of exchanging place `k` with its smaller child `c`. -/
theorem OrdDown.down {cmp : V → V → Int} (t : Total cmp) {v : Nat → V} {a : Nat → Nat} {n k c : Nat}
    (o : OrdDown cmp (fun i => v (a i)) n k) (hc : c < n) (hcd : c = 2 * k + 1 ∨ c = 2 * k + 2)
    (h1 : cmp (v (a c)) (v (a k)) ≤ 0)
    (h2 : ∀ i, i < n → i ≠ 0 → (i - 1) / 2 = k → cmp (v (a c)) (v (a i)) ≤ 0) :
    OrdDown cmp (fun i => v (swap a k c i)) n c := by
  have hv : ∀ i, v (swap a k c i) = if i = k then v (a c) else if i = c then v (a k) else v (a i) := by
    intro i
    simp only [swap]
    repeat' split
    all_goals rfl
  refine ⟨fun i hi hi0 hip => ?_, fun i hi hi0 hip hc0 => ?_⟩
  · simp only [hv, if_neg hip]
    by_cases hik : i = k
    · subst hik
      rw [if_neg (by omega), if_pos rfl]
      exact o.skip c hc (by omega) (by omega) hi0
    · rw [if_neg hik]
      by_cases hic : i = c
      · subst hic
        rw [if_pos (by omega), if_pos rfl]
        exact h1
      · rw [if_neg hic]
        by_cases hp : (i - 1) / 2 = k
        · rw [if_pos hp]; exact h2 i hi hi0 hp
        · rw [if_neg hp]; exact o.par i hi hi0 hp
  · have e1 : (c - 1) / 2 = k := by omega
    simp only [hv, e1, if_true, if_neg (show i ≠ k by omega), if_neg (show i ≠ c by omega)]
    have := o.par i hi hi0 (by omega)
    simp only [hip] at this
    exact this

/-- `send_down` puts the nodes in order and keeps them. -/
theorem sendDown_spec {cmp : V → V → Int} (t : Total cmp) : ∀ (fuel : Nat) {h : Heap V} {a : Nat → Nat} {n k : Nat},
    Rep h a n → k < n → OrdDown cmp (fun i => h.val (a i)) n k → n - k ≤ fuel →
    ∃ h' b, h.sendDown cmp fuel (a k) = some h' ∧ Rep h' b n ∧ Same a b n ∧ h'.val = h.val
      ∧ Sorted cmp (fun i => h.val (b i)) n
  | 0, _, _, n, k, _, hk, _, hf => by omega
  | fuel + 1, h, a, n, k, r, hk, o, hf => by
    have stop : (∀ i, i < n → i ≠ 0 → (i - 1) / 2 = k → cmp (h.val (a k)) (h.val (a i)) ≤ 0) →
        ∃ h' b, some h = some h' ∧ Rep h' b n ∧ Same a b n ∧ h'.val = h.val ∧ Sorted cmp (fun i => h.val (b i)) n := by
      intro hs
      refine ⟨h, a, rfl, r, Same.refl a n, rfl, fun i hi hi0 => ?_⟩
      by_cases hp : (i - 1) / 2 = k
      · have := hs i hi hi0 hp
        simp only [hp]; exact this
      · exact o.par i hi hi0 hp
    have go : ∀ (c : Nat) (h2 : Heap V), c < n → (c = 2 * k + 1 ∨ c = 2 * k + 2) → h2.val = h.val →
        Rep h2 (swap a k c) n → cmp (h.val (a k)) (h.val (a c)) > 0 →
        (∀ i, i < n → i ≠ 0 → (i - 1) / 2 = k → cmp (h.val (a c)) (h.val (a i)) ≤ 0) →
        ∃ h' b, h2.sendDown cmp fuel (a k) = some h' ∧ Rep h' b n ∧ Same a b n ∧ h'.val = h.val
          ∧ Sorted cmp (fun i => h.val (b i)) n := by
      intro c h2 hc hcd hv r2 hgt hmin
      have o2 := o.down t hc hcd (t.le_of_gt hgt) hmin
      rw [← hv] at o2
      obtain ⟨h', b, e1, e2, e3, e4, e5⟩ := sendDown_spec t fuel r2 hc o2 (by omega)
      have ea : swap a k c c = a k := by
        simp only [swap]; rw [if_neg (by omega), if_pos trivial]
      rw [ea] at e1
      rw [hv] at e4 e5
      exact ⟨h', b, e1, e2, (Same.swap hk hc).trans e3, e4, e5⟩
    have self : ∀ x, cmp x x ≤ 0 := by
      intro x
      rcases Int.lt_or_le 0 (cmp x x) with g | g
      · have := (t.anti x x).mpr g; omega
      · exact g
    rw [Heap.sendDown, r.left k hk, r.right k hk]
    by_cases hl : 2 * k + 1 < n
    · rw [if_pos hl]
      simp only
      by_cases hr : 2 * k + 2 < n
      · rw [if_pos hr]
        simp only
        split
        · rename_i hlr
          split
          · rename_i hgt
            refine go (2 * k + 2) _ hr (Or.inr rfl) (swapRight_val ..) (swapRight_rep r hr rfl) hgt ?_
            intro i hi hi0 hp
            have : i = 2 * k + 1 ∨ i = 2 * k + 2 := by omega
            rcases this with e | e
            · rw [e]; exact t.le_of_gt hlr
            · rw [e]; exact self _
          · rename_i hle
            refine stop ?_
            intro i hi hi0 hp
            have : i = 2 * k + 1 ∨ i = 2 * k + 2 := by omega
            rcases this with e | e
            · rw [e]; exact t.trans _ _ _ (by omega) (t.le_of_gt hlr)
            · rw [e]; omega
        · rename_i hlr
          split
          · rename_i hgt
            refine go (2 * k + 1) _ hl (Or.inl rfl) (swapLeft_val ..) (swapLeft_rep r hl rfl) hgt ?_
            intro i hi hi0 hp
            have : i = 2 * k + 1 ∨ i = 2 * k + 2 := by omega
            rcases this with e | e
            · rw [e]; exact self _
            · rw [e]; omega
          · rename_i hle
            refine stop ?_
            intro i hi hi0 hp
            have : i = 2 * k + 1 ∨ i = 2 * k + 2 := by omega
            rcases this with e | e
            · rw [e]; omega
            · rw [e]; exact t.trans _ _ _ (by omega) (show cmp (h.val (a (2 * k + 1))) _ ≤ 0 by omega)
      · rw [if_neg hr]
        simp only
        split
        · rename_i hgt
          refine go (2 * k + 1) _ hl (Or.inl rfl) (swapLeft_val ..) (swapLeft_rep r hl rfl) hgt ?_
          intro i hi hi0 hp
          have : i = 2 * k + 1 := by omega
          rw [this]; exact self _
        · rename_i hle
          refine stop ?_
          intro i hi hi0 hp
          have : i = 2 * k + 1 := by omega
          rw [this]; omega
    · rw [if_neg hl]
      refine stop ?_
      intro i hi hi0 hp
      omega

/-! ## Finding the places after and before the last one -/

theorem Rep.isLeft {h : Heap V} {a : Nat → Nat} {n i : Nat} (r : Rep h a n) (hi : i < n) (h0 : i ≠ 0) :
    h.left (a ((i - 1) / 2)) = some (a i) ↔ i % 2 = 1 := by
  rw [r.left _ (by omega)]
  constructor
  · intro e
    split at e
    · rename_i hl
      have := r.inj _ _ hl hi (Option.some.inj e)
      omega
    · cases e
  · intro e
    rw [if_pos (by omega)]
    congr 2; omega

theorem Rep.isRight {h : Heap V} {a : Nat → Nat} {n i : Nat} (r : Rep h a n) (hi : i < n) (h0 : i ≠ 0) :
    h.right (a ((i - 1) / 2)) = some (a i) ↔ i % 2 = 0 := by
  rw [r.right _ (by omega)]
  constructor
  · intro e
    split at e
    · rename_i hl
      have := r.inj _ _ hl hi (Option.some.inj e)
      omega
    · cases e
  · intro e
    rw [if_pos (by omega)]
    congr 2; omega

theorem climbRight_spec {h : Heap V} {a : Nat → Nat} {n : Nat} (r : Rep h a n) : ∀ (fuel i u : Nat), i < n → i < fuel →
    ∃ j c, h.climbRight fuel (a i) u = some (a j, u + c) ∧ j < n ∧ i + 2 = (j + 2) * 2 ^ c ∧ (j = 0 ∨ j % 2 = 1)
  | 0, _, _, _, hf => absurd hf (Nat.not_lt_zero _)
  | fuel + 1, i, u, hi, hf => by
    rw [Heap.climbRight, r.up i hi]
    by_cases h0 : i = 0
    · rw [if_pos h0]
      exact ⟨i, 0, rfl, hi, by simp, Or.inl h0⟩
    · rw [if_neg h0]
      simp only [r.isRight hi h0]
      by_cases hp : i % 2 = 0
      · rw [if_pos hp]
        obtain ⟨j, c, e1, e2, e3, e4⟩ := climbRight_spec r fuel ((i - 1) / 2) (u + 1) (by omega) (by omega)
        refine ⟨j, c + 1, by rw [e1]; congr 2; omega, e2, ?_, e4⟩
        rw [Nat.pow_succ, ← Nat.mul_assoc, ← e3]
        omega
      · rw [if_neg hp]
        exact ⟨i, 0, rfl, hi, by simp, Or.inr (by omega)⟩

theorem climbLeft_spec {h : Heap V} {a : Nat → Nat} {n : Nat} (r : Rep h a n) : ∀ (fuel i u : Nat), i < n → i < fuel →
    ∃ j c, h.climbLeft fuel (a i) u = some (a j, u + c) ∧ j < n ∧ i + 1 = (j + 1) * 2 ^ c ∧ j % 2 = 0
  | 0, _, _, _, hf => absurd hf (Nat.not_lt_zero _)
  | fuel + 1, i, u, hi, hf => by
    rw [Heap.climbLeft, r.up i hi]
    by_cases h0 : i = 0
    · rw [if_pos h0]
      exact ⟨i, 0, rfl, hi, by simp, by omega⟩
    · rw [if_neg h0]
      simp only [r.isLeft hi h0]
      by_cases hp : i % 2 = 1
      · rw [if_pos hp]
        obtain ⟨j, c, e1, e2, e3, e4⟩ := climbLeft_spec r fuel ((i - 1) / 2) (u + 1) (by omega) (by omega)
        refine ⟨j, c + 1, by rw [e1]; congr 2; omega, e2, ?_, e4⟩
        rw [Nat.pow_succ, ← Nat.mul_assoc, ← e3]
        omega
      · rw [if_neg hp]
        exact ⟨i, 0, rfl, hi, by simp, by omega⟩

theorem downLeft_spec {h : Heap V} {a : Nat → Nat} {n : Nat} (r : Rep h a n) : ∀ (m j k : Nat),
    k + 1 = (j + 1) * 2 ^ m → k < n → h.downLeft m (a j) = some (a k)
  | 0, j, k, e, _ => by
    rw [Heap.downLeft]; congr 2; simp at e; exact e.symm
  | m + 1, j, k, e, hk => by
    have hp : 0 < 2 ^ m := Nat.two_pow_pos m
    have e2 : k + 1 = (2 * j + 1 + 1) * 2 ^ m := by rw [e, Nat.pow_succ]; grind
    have h1 : (2 * j + 2) * 1 ≤ (2 * j + 1 + 1) * 2 ^ m := Nat.mul_le_mul (by omega) hp
    rw [Heap.downLeft, r.left j (by omega), if_pos (by omega)]
    exact downLeft_spec r m _ k e2 hk

theorem downRight_spec {h : Heap V} {a : Nat → Nat} {n : Nat} (r : Rep h a n) : ∀ (m j k : Nat),
    k + 2 = (j + 2) * 2 ^ m → k < n → h.downRight m (a j) = some (a k)
  | 0, j, k, e, _ => by
    rw [Heap.downRight]; congr 2; simp at e; exact e.symm
  | m + 1, j, k, e, hk => by
    have hp : 0 < 2 ^ m := Nat.two_pow_pos m
    have e2 : k + 2 = (2 * j + 2 + 2) * 2 ^ m := by rw [e, Nat.pow_succ]; grind
    have h1 : (2 * j + 4) * 1 ≤ (2 * j + 2 + 2) * 2 ^ m := Nat.mul_le_mul (by omega) hp
    rw [Heap.downRight, r.right j (by omega), if_pos (by omega)]
    exact downRight_spec r m _ k e2 hk

/-- `find_next_pos` gives the place after the last one. -/
theorem findNextPos_spec {h : Heap V} {a : Nat → Nat} {n fuel : Nat} (r : Rep h a n) (hn : 0 < n) (hf : n ≤ fuel) :
    h.findNextPos fuel (a (n - 1)) = some (a ((n - 1) / 2), decide (n % 2 = 0)) := by
  have rest : n % 2 = 1 → (match h.climbRight fuel (a (n - 1)) 0 with
    | none => none
    | some (c, n) =>
      match h.up c with
      | some p =>
        match h.right p with
        | none => none
        | some r => if n = 0 then none else (h.downLeft (n - 1) r).map (·, false)
      | none => (h.downLeft n c).map (·, false)) = some (a ((n - 1) / 2), decide (n % 2 = 0)) := by
    intro hodd
    obtain ⟨j, c, e1, e2, e3, e4⟩ := climbRight_spec r fuel (n - 1) 0 (by omega) (by omega)
    rw [e1]
    simp only [r.up j e2, Nat.zero_add]
    have hd : decide (n % 2 = 0) = false := decide_eq_false (by omega)
    by_cases hj : j = 0
    · rw [if_pos hj]
      simp only
      rw [downLeft_spec r c j ((n - 1) / 2) (by subst hj; omega) (by omega), hd]
      rfl
    · rw [if_neg hj]
      have hc : c ≠ 0 := by
        rintro rfl
        simp at e3; omega
      obtain ⟨d, rfl⟩ : ∃ d, c = d + 1 := ⟨c - 1, by omega⟩
      have e5 : n - 1 + 2 = 2 * ((j + 2) * 2 ^ d) := by rw [e3, Nat.pow_succ]; grind
      have h1 : (j + 2) * 1 ≤ (j + 2) * 2 ^ d := Nat.mul_le_mul (by omega) (Nat.two_pow_pos d)
      simp only
      rw [r.right _ (by omega), if_pos (by omega)]
      simp only
      rw [if_neg (by omega), downLeft_spec r (d + 1 - 1) _ ((n - 1) / 2) ?_ (by omega), hd]
      · rfl
      · have : 2 * ((j - 1) / 2) + 2 + 1 = j + 2 := by omega
        rw [this, Nat.add_sub_cancel]
        omega
  unfold Heap.findNextPos
  simp only [r.up (n - 1) (by omega)]
  by_cases h0 : n - 1 = 0
  · rw [if_pos h0]
    exact rest (by omega)
  · rw [if_neg h0]
    simp only [r.isLeft (show n - 1 < n by omega) h0]
    by_cases hp : (n - 1) % 2 = 1
    · rw [if_pos hp, decide_eq_true (show n % 2 = 0 by omega)]
      congr 3
      omega
    · rw [if_neg hp]
      exact rest (by omega)

/-- `find_prev_elem` gives the node in the place before the last one. -/
theorem findPrev_spec {h : Heap V} {a : Nat → Nat} {n fuel : Nat} (r : Rep h a n) (hn : 1 < n) (hf : n ≤ fuel) :
    h.findPrev fuel (a (n - 1)) = some (a (n - 2)) := by
  have h0 : n - 1 ≠ 0 := by omega
  unfold Heap.findPrev
  simp only [r.up (n - 1) (by omega), if_neg h0, r.isRight (show n - 1 < n by omega) h0]
  by_cases hp : (n - 1) % 2 = 0
  · rw [if_pos hp, r.left _ (by omega), if_pos (by omega)]
    congr 2
    omega
  · rw [if_neg hp]
    obtain ⟨j, c, e1, e2, e3, e4⟩ := climbLeft_spec r fuel (n - 1) 0 (by omega) (by omega)
    rw [e1]
    simp only [r.up j e2, Nat.zero_add]
    by_cases hj : j = 0
    · rw [if_pos hj]
      have hc : c ≠ 0 := by
        rintro rfl
        simp at e3; omega
      obtain ⟨d, rfl⟩ : ∃ d, c = d + 1 := ⟨c - 1, by omega⟩
      simp only
      rw [if_neg (by omega)]
      refine downRight_spec r _ _ _ ?_ (by omega)
      subst hj
      rw [Nat.pow_succ] at e3
      rw [Nat.add_sub_cancel]
      omega
    · rw [if_neg hj]
      simp only
      rw [r.left _ (by omega), if_pos (by omega)]
      simp only
      refine downRight_spec r _ _ _ ?_ (by omega)
      have : 2 * ((j - 1) / 2) + 1 + 2 = j + 1 := by omega
      rw [this]
      omega

/-! ## Adding -/

/-- The places with the new node in place `n`. -/
def put (a : Nat → Nat) (n e : Nat) : Nat → Nat := fun i => if i = n then e else a i

/-- The heap with the new node hung in, before `send_up`. -/
theorem Rep.hang {h : Heap V} {a : Nat → Nat} {n e : Nat} (r : Rep h a n) (hn : 0 < n) (he : ∀ i, i < n → a i ≠ e) :
    let h0 := ((h.setLeft e none).setRight e none).setUp e none
    let h1 := if decide (n % 2 = 0) then h0.setRight (a ((n - 1) / 2)) (some e)
      else h0.setLeft (a ((n - 1) / 2)) (some e)
    Rep { h1.setUp e (some (a ((n - 1) / 2))) with last := some e } (put a n e) (n + 1) := by
  have hq : (n - 1) / 2 < n := by omega
  have hqe := he _ hq
  refine ⟨?_, ?_, ?_, ?_, ?_, ?_⟩
  · intro i j hi hj
    simp only [put]
    by_cases h1 : i = n <;> by_cases h2 : j = n
    · intro _; omega
    · rw [if_pos h1, if_neg h2]; intro g; exact absurd g.symm (he j (by omega))
    · rw [if_neg h1, if_pos h2]; intro g; exact absurd g (he i (by omega))
    · rw [if_neg h1, if_neg h2]; exact r.inj i j (by omega) (by omega)
  · intro i hi
    by_cases h1 : i = n
    · subst h1
      rw [if_neg (show ¬ 2 * i + 1 < i + 1 by omega)]
      by_cases hp : i % 2 = 0
      · simp [put, hp, setLeft_left, setRight_left, setUp_left]
      · simp [put, hp, setLeft_left, setRight_left, setUp_left, Ne.symm hqe]
    · have hae := he i (by omega)
      have ep : put a n e i = a i := by simp [put, h1]
      rw [ep]
      by_cases hp : n % 2 = 0
      · simp only [hp, decide_true, if_true, setLeft_left, setRight_left, setUp_left, if_neg hae]
        rw [r.left i (by omega)]
        by_cases h2 : 2 * i + 1 < n
        · rw [if_pos h2, if_pos (by omega)]; simp only [put]; rw [if_neg (by omega)]
        · rw [if_neg h2, if_neg (by omega)]
      · simp only [hp, decide_false, setLeft_left, setRight_left, setUp_left, if_neg hae, Bool.false_eq_true, if_false]
        by_cases h3 : i = (n - 1) / 2
        · rw [if_pos (by rw [h3]), if_pos (by omega)]; simp only [put]; rw [if_pos (by omega)]
        · rw [if_neg (fun g => h3 (r.inj _ _ (by omega) hq g)), r.left i (by omega)]
          by_cases h2 : 2 * i + 1 < n
          · rw [if_pos h2, if_pos (by omega)]; simp only [put]; rw [if_neg (by omega)]
          · rw [if_neg h2, if_neg (by omega)]
  · intro i hi
    by_cases h1 : i = n
    · subst h1
      rw [if_neg (show ¬ 2 * i + 2 < i + 1 by omega)]
      by_cases hp : i % 2 = 0
      · simp [put, hp, setLeft_right, setRight_right, setUp_right, Ne.symm hqe]
      · simp [put, hp, setLeft_right, setRight_right, setUp_right]
    · have hae := he i (by omega)
      have ep : put a n e i = a i := by simp [put, h1]
      rw [ep]
      by_cases hp : n % 2 = 0
      · simp only [hp, decide_true, if_true, setLeft_right, setRight_right, setUp_right, if_neg hae]
        by_cases h3 : i = (n - 1) / 2
        · rw [if_pos (by rw [h3]), if_pos (by omega)]; simp only [put]; rw [if_pos (by omega)]
        · rw [if_neg (fun g => h3 (r.inj _ _ (by omega) hq g)), r.right i (by omega)]
          by_cases h2 : 2 * i + 2 < n
          · rw [if_pos h2, if_pos (by omega)]; simp only [put]; rw [if_neg (by omega)]
          · rw [if_neg h2, if_neg (by omega)]
      · simp only [hp, decide_false, setLeft_right, setRight_right, setUp_right, if_neg hae, Bool.false_eq_true, if_false]
        rw [r.right i (by omega)]
        by_cases h2 : 2 * i + 2 < n
        · rw [if_pos h2, if_pos (by omega)]; simp only [put]; rw [if_neg (by omega)]
        · rw [if_neg h2, if_neg (by omega)]
  · intro i hi
    have hup : ∀ (q : Nat), (((if decide (n % 2 = 0) then
        (((h.setLeft e none).setRight e none).setUp e none).setRight (a ((n - 1) / 2)) (some e)
        else (((h.setLeft e none).setRight e none).setUp e none).setLeft (a ((n - 1) / 2)) (some e))).setUp e
          (some (a ((n - 1) / 2)))).up q = if q = e then some (a ((n - 1) / 2)) else h.up q := by
      intro q
      rw [setUp_up]
      split
      · rfl
      · rename_i hne
        split <;> simp [setUp_up, setRight_up, setLeft_up, hne]
    simp only [hup]
    by_cases h1 : i = n
    · subst h1
      simp only [put, if_true]
      rw [if_neg (by omega), if_neg (by omega)]
    · have hae := he i (by omega)
      have ep : put a n e i = a i := by simp [put, h1]
      rw [ep, if_neg hae, r.up i (by omega)]
      split
      · rfl
      · simp only [put]; rw [if_neg (by omega)]
  · have : (if decide (n % 2 = 0) then
        (((h.setLeft e none).setRight e none).setUp e none).setRight (a ((n - 1) / 2)) (some e)
        else (((h.setLeft e none).setRight e none).setUp e none).setLeft (a ((n - 1) / 2)) (some e)).top = h.top := by
      split <;> rfl
    simp only [setUp_top, this, r.top]
    rw [if_neg (by omega), if_neg (by omega)]
    simp only [put]; rw [if_neg (by omega)]
  · simp [put]

theorem Rep.reset {h : Heap V} {a : Nat → Nat} {n e : Nat} (r : Rep h a n) (he : ∀ i, i < n → a i ≠ e) :
    Rep (((h.setLeft e none).setRight e none).setUp e none) a n := by
  refine ⟨r.inj, fun i hi => ?_, fun i hi => ?_, fun i hi => ?_, r.top, r.last⟩
  · simp only [setUp_left, setRight_left, setLeft_left, if_neg (he i hi)]; exact r.left i hi
  · simp only [setUp_right, setRight_right, setLeft_right, if_neg (he i hi)]; exact r.right i hi
  · simp only [setUp_up, setRight_up, setLeft_up, if_neg (he i hi)]; exact r.up i hi

/-- `add` puts a new node into the heap. -/
theorem add_spec {cmp : V → V → Int} (t : Total cmp) {h : Heap V} {a : Nat → Nat} {n e fuel : Nat} (r : Rep h a n)
    (o : Sorted cmp (fun i => h.val (a i)) n) (he : ∀ i, i < n → a i ≠ e) (hf : n < fuel) :
    ∃ h' b, h.add cmp fuel e = some h' ∧ Rep h' b (n + 1) ∧ Same (put a n e) b (n + 1) ∧ h'.val = h.val
      ∧ Sorted cmp (fun i => h.val (b i)) (n + 1) := by
  unfold Heap.add
  have r0 := r.reset he
  by_cases hn : n = 0
  · subst hn
    simp only [r0.top, if_true]
    refine ⟨_, put a 0 e, rfl, ⟨?_, ?_, ?_, ?_, ?_, ?_⟩, Same.refl _ _, rfl, ?_⟩
    · intro i j hi hj _; omega
    · intro i hi
      obtain rfl : i = 0 := by omega
      simp [put, setUp_left, setRight_left, setLeft_left]
    · intro i hi
      obtain rfl : i = 0 := by omega
      simp [put, setUp_right, setRight_right, setLeft_right]
    · intro i hi
      obtain rfl : i = 0 := by omega
      simp [put, setUp_up, setRight_up, setLeft_up]
    · simp [put]
    · simp [put]
    · intro i hi hi0; omega
  · have hfn := findNextPos_spec (fuel := fuel) r0 (by omega) (by omega)
    have hh := r.hang (e := e) (by omega) he
    simp only at hh
    simp only [r0.top, r0.last, if_neg hn, hfn]
    generalize hk : (if decide (n % 2 = 0) = true then
        (((h.setLeft e none).setRight e none).setUp e none).setRight (a ((n - 1) / 2)) (some e)
        else (((h.setLeft e none).setRight e none).setUp e none).setLeft (a ((n - 1) / 2)) (some e)) = h1 at hh ⊢
    have hv : h1.val = h.val := by rw [← hk]; split <;> rfl
    have en : put a n e n = e := by simp [put]
    have ea : ∀ i, i ≠ n → put a n e i = a i := fun i hi => by simp [put, hi]
    simp only [setUp_val, hv] at hh ⊢
    have base : ∀ i, i < n + 1 → i ≠ 0 → i ≠ n → cmp (h.val (put a n e ((i - 1) / 2))) (h.val (put a n e i)) ≤ 0 := by
      intro i hi hi0 hin
      rw [ea i hin, ea _ (by omega)]
      exact o i (by omega) hi0
    split
    · obtain ⟨h', b, e1, e2, e3, e4, e5⟩ := sendUp_spec t fuel hh (show n < n + 1 by omega)
        ⟨base, fun i hi hi0 hp _ => by omega⟩ hf
      rw [en] at e1
      exact ⟨h', b, e1, e2, e3, e4, e5⟩
    · rename_i hge
      refine ⟨_, put a n e, rfl, hh, Same.refl _ _, rfl, ?_⟩
      intro i hi hi0
      by_cases hin : i = n
      · subst hin
        simp only [en]
        rw [ea _ (by omega)]
        exact t.le hge
      · exact base i hi hi0 hin

/-! ## Removing -/

/-- The last node cut off. -/
def Heap.cut (h : Heap V) (p prev toInsert : Nat) : Heap V :=
  let h := { h with last := some prev }
  if h.left p = some toInsert then h.setLeft p none else h.setRight p none

theorem cut_val (h : Heap V) (p prev x : Nat) : (h.cut p prev x).val = h.val := by
  simp only [Heap.cut]; split <;> rfl

theorem cut_rep {h : Heap V} {a : Nat → Nat} {n : Nat} (r : Rep h a n) (hn : 1 < n) :
    Rep (h.cut (a ((n - 1 - 1) / 2)) (a (n - 2)) (a (n - 1))) a (n - 1) := by
  have hl := r.isLeft (show n - 1 < n by omega) (by omega)
  have hq : (n - 1 - 1) / 2 < n := by omega
  refine ⟨fun i j hi hj => r.inj i j (by omega) (by omega), ?_, ?_, ?_, ?_, ?_⟩
  · intro i hi
    simp only [Heap.cut, hl]
    by_cases hp : (n - 1) % 2 = 1
    · rw [if_pos hp]
      simp only [setLeft_left]
      simp only [r.eq (show i < n by omega) hq, r.left i (by omega)]
      places a
    · rw [if_neg hp]
      simp only [setRight_left, r.left i (by omega)]
      places a
  · intro i hi
    simp only [Heap.cut, hl]
    by_cases hp : (n - 1) % 2 = 1
    · rw [if_pos hp]
      simp only [setLeft_right, r.right i (by omega)]
      places a
    · rw [if_neg hp]
      simp only [setRight_right]
      simp only [r.eq (show i < n by omega) hq, r.right i (by omega)]
      places a
  · intro i hi
    have : (h.cut (a ((n - 1 - 1) / 2)) (a (n - 2)) (a (n - 1))).up = h.up := by
      simp only [Heap.cut]; split <;> rfl
    rw [this]
    exact r.up i (by omega)
  · have : (h.cut (a ((n - 1 - 1) / 2)) (a (n - 2)) (a (n - 1))).top = h.top := by
      simp only [Heap.cut]; split <;> rfl
    rw [this, r.top, if_neg (by omega), if_neg (by omega)]
  · have : (h.cut (a ((n - 1 - 1) / 2)) (a (n - 2)) (a (n - 1))).last = some (a (n - 2)) := by
      simp only [Heap.cut]; split <;> rfl
    rw [this, if_neg (by omega)]
    rfl

theorem takePlace_val (h : Heap V) (e t : Nat) : (h.takePlace e t).val = h.val := by
  simp only [Heap.takePlace, setLeft_val, setRight_val, setUp_val, setUpOf_val, relink_val, moveLast_val]

/-- Node `t` is not linked to node `e`. -/
structure Alone (h : Heap V) (e t : Nat) : Prop where
  ne : e ≠ t
  u1 : h.up e ≠ some e
  u2 : h.up e ≠ some t
  l1 : h.left e ≠ some e
  l2 : h.left e ≠ some t
  r1 : h.right e ≠ some e
  r2 : h.right e ≠ some t

theorem takePlace_left {h : Heap V} {e t : Nat} (d : Alone h e t) (q : Nat) :
    (h.takePlace e t).left q = if q = t then h.left e
      else if h.up e = some q ∧ h.left q = some e then some t else h.left q := by
  simp only [Heap.takePlace]
  stores
  simp only [d.u1, d.ne, d.l1, d.r1, false_and, if_false]

theorem takePlace_right {h : Heap V} {e t : Nat} (d : Alone h e t) (q : Nat) :
    (h.takePlace e t).right q = if q = t then h.right e
      else if h.up e = some q ∧ h.left q ≠ some e then some t else h.right q := by
  simp only [Heap.takePlace]
  stores
  simp only [d.u1, d.ne, d.l1, d.r1, false_and, if_false]

theorem takePlace_up {h : Heap V} {e t : Nat} (d : Alone h e t) (q : Nat) :
    (h.takePlace e t).up q = if h.left e = some q ∨ h.right e = some q then some t else if q = t then h.up e else h.up q := by
  simp only [Heap.takePlace]
  stores
  simp only [d.u1, d.ne, d.l1, d.r1, false_and, if_false]
  by_cases h1 : h.left e = some q <;> by_cases h2 : h.right e = some q <;> simp [h1, h2]

theorem takePlace_top (h : Heap V) (e t : Nat) : (h.takePlace e t).top = if h.up e = none then some t else h.top := by
  simp only [Heap.takePlace]
  stores

theorem takePlace_last (h : Heap V) (e t : Nat) :
    (h.takePlace e t).last = if h.last = some e then some t else h.last := by
  simp only [Heap.takePlace]
  stores

theorem takePlace_rep {h : Heap V} {a : Nat → Nat} {n k t : Nat} (r : Rep h a n) (hk : k < n) (ht : ∀ i, i < n → a i ≠ t) :
    Rep (h.takePlace (a k) t) (put a k t) n := by
  have ho : ∀ x, (if x < n then some (a x) else none) ≠ some t := by
    intro x e
    split at e
    · exact ht x (by assumption) (Option.some.inj e)
    · cases e
  have d : Alone h (a k) t := by
    refine ⟨ht k hk, ?_, ?_, ?_, ?_, ?_, ?_⟩
    · rw [r.up k hk, Ne, r.optUp hk hk]; omega
    · rw [r.up k hk]
      split
      · simp
      · intro e; exact ht _ (by omega) (Option.some.inj e)
    · rw [r.left k hk, Ne, r.opt hk]; omega
    · rw [r.left k hk]; exact ho _
    · rw [r.right k hk, Ne, r.opt hk]; omega
    · rw [r.right k hk]; exact ho _
  have ek : put a k t k = t := by simp [put]
  have ea : ∀ i, i ≠ k → put a k t i = a i := fun i hi => by simp [put, hi]
  have eo : ∀ x, (if x < n then some (put a k t x) else none)
      = if x = k then some t else if x < n then some (a x) else none := by
    intro x
    by_cases hx : x = k
    · subst hx; rw [if_pos hk, if_pos rfl, ek]
    · rw [ea x hx, if_neg hx]
  refine ⟨?_, ?_, ?_, ?_, ?_, ?_⟩
  · intro i j hi hj
    by_cases h1 : i = k <;> by_cases h2 : j = k
    · intro _; omega
    · rw [h1, ek, ea j h2]; intro g; exact absurd g.symm (ht j hj)
    · rw [h2, ek, ea i h1]; intro g; exact absurd g (ht i hi)
    · rw [ea i h1, ea j h2]; exact r.inj i j hi hj
  · intro i hi
    rw [takePlace_left d, eo]
    by_cases h1 : i = k
    · rw [h1, ek, if_pos rfl, r.left k hk, if_neg (show 2 * k + 1 ≠ k by omega)]
    · rw [ea i h1, if_neg (ht i hi), r.up k hk, r.left i hi]
      simp only [r.optUp hk hi, r.opt hk]
      places a
  · intro i hi
    rw [takePlace_right d, eo]
    by_cases h1 : i = k
    · rw [h1, ek, if_pos rfl, r.right k hk, if_neg (show 2 * k + 2 ≠ k by omega)]
    · rw [ea i h1, if_neg (ht i hi), r.up k hk, r.left i hi, r.right i hi]
      simp only [r.optUp hk hi, r.opt hk, Ne]
      places a
  · intro i hi
    rw [takePlace_up d]
    by_cases h1 : i = k
    · rw [h1, ek, if_neg (by rw [not_or]; exact ⟨d.l2, d.r2⟩), if_pos rfl, r.up k hk]
      by_cases h0 : k = 0
      · rw [if_pos h0, if_pos h0]
      · rw [if_neg h0, if_neg h0, ea _ (by omega)]
    · rw [ea i h1, if_neg (ht i hi), r.left k hk, r.right k hk, r.up i hi]
      simp only [r.opt hi]
      by_cases h0 : i = 0
      · rw [if_pos h0, if_pos h0, if_neg (by omega)]
      · rw [if_neg h0, if_neg h0]
        by_cases h2 : (i - 1) / 2 = k
        · rw [h2, ek, if_pos (by omega)]
        · rw [ea _ h2, if_neg (by omega)]
  · rw [takePlace_top, r.top, r.up k hk, if_neg (show n ≠ 0 by omega)]
    by_cases h0 : k = 0
    · rw [if_pos h0, if_pos rfl, if_neg (show n ≠ 0 by omega), ← h0, ek]
    · rw [if_neg h0, if_neg (by simp), if_neg (show n ≠ 0 by omega), ea 0 (Ne.symm h0)]
  · rw [takePlace_last, r.last, if_neg (show n ≠ 0 by omega), if_neg (show n ≠ 0 by omega)]
    simp only [Option.some.injEq, r.eq (show n - 1 < n by omega) hk]
    by_cases h0 : n - 1 = k
    · rw [if_pos h0, h0, ek]
    · rw [if_neg h0, ea _ h0]

/-- What is left after `remove`. -/
def Without (a b : Nat → Nat) (n k : Nat) : Prop :=
  ∀ p, (∃ i, i < n - 1 ∧ b i = p) ↔ (∃ i, i < n ∧ a i = p) ∧ p ≠ a k

/-- `remove` takes out one node. -/
theorem remove_spec {cmp : V → V → Int} (t : Total cmp) {h : Heap V} {a : Nat → Nat} {n k fuel : Nat} (r : Rep h a n)
    (o : Sorted cmp (fun i => h.val (a i)) n) (hk : k < n) (hf : n ≤ fuel) :
    ∃ h' b, h.remove cmp fuel (a k) = some h' ∧ Rep h' b (n - 1) ∧ Without a b n k ∧ h'.val = h.val
      ∧ Sorted cmp (fun i => h.val (b i)) (n - 1) := by
  unfold Heap.remove
  rw [r.last, if_neg (by omega)]
  simp only [r.up (n - 1) (by omega)]
  by_cases h1 : n - 1 = 0
  · rw [if_pos h1]
    refine ⟨_, a, rfl, ⟨?_, ?_, ?_, ?_, ?_, ?_⟩, ?_, rfl, ?_⟩
    · intro i j hi hj; omega
    · intro i hi; omega
    · intro i hi; omega
    · intro i hi; omega
    · rw [if_pos h1]
    · rw [if_pos h1]
    · intro p
      constructor
      · rintro ⟨i, hi, _⟩; omega
      · rintro ⟨⟨i, hi, rfl⟩, hp⟩
        obtain rfl : i = k := by omega
        exact absurd rfl hp
    · intro i hi; omega
  · rw [if_neg h1]
    have hfp := findPrev_spec (fuel := fuel) r (by omega) hf
    simp only [hfp]
    have rc := cut_rep r (by omega)
    change ∃ h' b, (if a k = a (n - 1) then some (h.cut (a ((n - 1 - 1) / 2)) (a (n - 2)) (a (n - 1))) else
      (h.cut (a ((n - 1 - 1) / 2)) (a (n - 2)) (a (n - 1))).replace cmp fuel (a k) (a (n - 1))) = some h' ∧ _
    have hv := cut_val h (a ((n - 1 - 1) / 2)) (a (n - 2)) (a (n - 1))
    generalize h.cut (a ((n - 1 - 1) / 2)) (a (n - 2)) (a (n - 1)) = hc at rc hv ⊢
    by_cases hl : k = n - 1
    · rw [if_pos (by rw [hl])]
      refine ⟨hc, a, rfl, rc, ?_, hv, fun i hi hi0 => o i (by omega) hi0⟩
      intro p
      constructor
      · rintro ⟨i, hi, rfl⟩
        exact ⟨⟨i, by omega, rfl⟩, fun g => by have := r.inj _ _ (by omega) hk g; omega⟩
      · rintro ⟨⟨i, hi, rfl⟩, hp⟩
        exact ⟨i, by have : i ≠ k := (fun g => hp (by rw [g])); omega, rfl⟩
    · rw [if_neg (fun g => hl (r.inj _ _ hk (by omega) g))]
      have rp := takePlace_rep (k := k) (t := a (n - 1)) rc (by omega)
        (fun i hi g => by have := r.inj _ _ (by omega) (by omega) g; omega)
      have hv2 : (hc.takePlace (a k) (a (n - 1))).val = h.val := by rw [takePlace_val, hv]
      unfold Heap.replace
      simp only
      generalize hc.takePlace (a k) (a (n - 1)) = hp at rp hv2 ⊢
      have ek : put a k (a (n - 1)) k = a (n - 1) := by simp [put]
      have ea : ∀ i, i ≠ k → put a k (a (n - 1)) i = a i := fun i hi => by simp [put, hi]
      have hw : ∀ b, Same (put a k (a (n - 1))) b (n - 1) → Without a b n k := by
        intro b hs p
        rw [← hs p]
        constructor
        · rintro ⟨i, hi, rfl⟩
          by_cases hik : i = k
          · rw [hik, ek]
            exact ⟨⟨n - 1, by omega, rfl⟩, fun g => by have := r.inj _ _ (by omega) hk g; omega⟩
          · rw [ea i hik]
            exact ⟨⟨i, by omega, rfl⟩, fun g => by have := r.inj _ _ (by omega) hk g; omega⟩
        · rintro ⟨⟨i, hi, rfl⟩, hp⟩
          have hik : i ≠ k := fun g => hp (by rw [g])
          by_cases hin : i = n - 1
          · exact ⟨k, by omega, by rw [ek, hin]⟩
          · exact ⟨i, by omega, ea i hik⟩
      have hskip : ∀ i, i < n - 1 → i ≠ 0 → (i - 1) / 2 = k → k ≠ 0 →
          cmp (h.val (put a k (a (n - 1)) ((k - 1) / 2))) (h.val (put a k (a (n - 1)) i)) ≤ 0 := by
        intro i hi hi0 hpi hk0
        rw [ea _ (by omega), ea _ (by omega)]
        have g1 := o i (by omega) hi0
        have g2 := o k hk hk0
        simp only [hpi] at g1
        exact t.trans _ _ _ g2 g1
      have hpar : ∀ i, i < n - 1 → i ≠ 0 → i ≠ k → (i - 1) / 2 ≠ k →
          cmp (h.val (put a k (a (n - 1)) ((i - 1) / 2))) (h.val (put a k (a (n - 1)) i)) ≤ 0 := by
        intro i hi hi0 hik hpi
        rw [ea _ hpi, ea _ hik]
        exact o i (by omega) hi0
      have down : (k ≠ 0 → ¬ cmp (h.val (a (n - 1))) (h.val (a ((k - 1) / 2))) < 0) →
          ∃ h' b, hp.sendDown cmp fuel (a (n - 1)) = some h' ∧ Rep h' b (n - 1) ∧ Without a b n k ∧ h'.val = h.val
            ∧ Sorted cmp (fun i => h.val (b i)) (n - 1) := by
        intro hge
        obtain ⟨h', b, e1, e2, e3, e4, e5⟩ := sendDown_spec t fuel (k := k) rp (by omega) (by
          rw [hv2]
          refine ⟨fun i hi hi0 hpi => ?_, hskip⟩
          by_cases hik : i = k
          · subst hik
            simp only [ek]
            rw [ea _ hpi]
            exact t.le (hge hi0)
          · exact hpar i hi hi0 hik hpi) (by omega)
        rw [ek] at e1
        rw [hv2] at e4 e5
        exact ⟨h', b, e1, e2, hw b e3, e4, e5⟩
      have hu : hp.up (a (n - 1)) = if k = 0 then none else some (a ((k - 1) / 2)) := by
        have := rp.up k (by omega)
        rw [ek] at this
        rw [this]
        split
        · rfl
        · rw [ea _ (by omega)]
      rw [hu]
      by_cases hk0 : k = 0
      · rw [if_pos hk0]
        exact down (fun g => absurd hk0 g)
      · rw [if_neg hk0]
        simp only [hv2]
        split
        · rename_i hlt
          obtain ⟨h', b, e1, e2, e3, e4, e5⟩ := sendUp_spec t fuel (k := k) rp (by omega) (by
            rw [hv2]
            refine ⟨fun i hi hi0 hik => ?_, hskip⟩
            by_cases hpi : (i - 1) / 2 = k
            · simp only [hpi, ek]
              rw [ea _ hik]
              have g1 := o i (by omega) hi0
              have g2 := o k hk hk0
              simp only [hpi] at g1
              exact t.trans _ _ _ (t.trans _ _ _ (Int.le_of_lt hlt) g2) g1
            · exact hpar i hi hi0 hik hpi) (by omega)
          rw [ek] at e1
          rw [hv2] at e4 e5
          exact ⟨h', b, e1, e2, hw b e3, e4, e5⟩
        · rename_i hge
          exact down (fun _ => hge)

end Gensio.Heap
