import Verif.Lemmas.Heap

/-!
# The heap of timers (C10)
-/

namespace Gensio.Heap

variable {V : Type}

/-! ## What a program asks for -/

/-- The entries present after the operations, by the meaning of the operations alone. -/
def entries : List Nat → List (Op V) → List Nat
  | s, [] => s
  | s, .key _ _ :: ops => entries s ops
  | s, .add p :: ops => entries (p :: s) ops
  | s, .remove p :: ops => entries (s.filter (· ≠ p)) ops

/-- The key of every node after the operations. -/
def keys : (Nat → V) → List (Op V) → Nat → V
  | k, [] => k
  | k, .key p v :: ops => keys (fun q => if q = p then v else k q) ops
  | k, .add _ :: ops => keys k ops
  | k, .remove _ :: ops => keys k ops

/-- How the heap may be used: only an absent node is added or given a key, and only a present one is removed. -/
def Proper : List Nat → List (Op V) → Prop
  | _, [] => True
  | s, .key p _ :: ops => p ∉ s ∧ Proper s ops
  | s, .add p :: ops => p ∉ s ∧ Proper (p :: s) ops
  | s, .remove p :: ops => p ∈ s ∧ Proper (s.filter (· ≠ p)) ops

/-- How often a node is added. -/
def adds : List (Op V) → Nat
  | [] => 0
  | .add _ :: ops => adds ops + 1
  | _ :: ops => adds ops

/-- Going up from `p` reaches `q` in `d` steps. -/
inductive Above (h : Heap V) : Nat → Nat → Nat → Prop
  | here (p : Nat) : Above h p p 0
  | up {p q r d : Nat} : h.up p = some q → Above h q r d → Above h p r (d + 1)

/-- The links between the entries `s` make up one tree of least depth. -/
structure Linked (h : Heap V) (s : List Nat) : Prop where
  left : ∀ p ∈ s, ∀ q, h.left p = some q → q ∈ s ∧ h.up q = some p
  right : ∀ p ∈ s, ∀ q, h.right p = some q → q ∈ s ∧ h.up q = some p
  apart : ∀ p ∈ s, ∀ q, h.left p = some q → h.right p ≠ some q
  up : ∀ p ∈ s, ∀ q, h.up p = some q → q ∈ s ∧ (h.left q = some p ∨ h.right q = some p)
  root : ∀ p ∈ s, h.up p = none ↔ h.top = some p
  reach : ∀ p ∈ s, ∃ t d, h.top = some t ∧ Above h p t d ∧ 2 ^ d ≤ s.length

/-! ## The invariant -/

structure Inv (cmp : V → V → Int) (h : Heap V) (s : List Nat) : Prop where
  rep : ∃ a, Rep h a s.length ∧ Sorted cmp (fun i => h.val (a i)) s.length ∧ ∀ p, p ∈ s ↔ ∃ i, i < s.length ∧ a i = p
  nodup : s.Nodup

theorem Inv.init (cmp : V → V → Int) (val : Nat → V) (left right up : Nat → Option Nat) :
    Inv cmp (Heap.init val left right up) [] :=
  ⟨⟨id, ⟨fun i _ hi => absurd hi (Nat.not_lt_zero i), fun i hi => absurd hi (Nat.not_lt_zero i),
      fun i hi => absurd hi (Nat.not_lt_zero i), fun i hi => absurd hi (Nat.not_lt_zero i), rfl, rfl⟩,
    fun i hi => absurd hi (Nat.not_lt_zero i), by simp⟩, List.nodup_nil⟩

theorem Inv.key {cmp : V → V → Int} {h : Heap V} {s : List Nat} (i : Inv cmp h s) {p : Nat} {v : V} (hp : p ∉ s) :
    Inv cmp { h with val := upd h.val p v } s := by
  obtain ⟨⟨a, r, o, m⟩, nd⟩ := i
  refine ⟨⟨a, ⟨r.inj, r.left, r.right, r.up, r.top, r.last⟩, ?_, m⟩, nd⟩
  have hv : ∀ i, i < s.length → upd h.val p v (a i) = h.val (a i) := by
    intro i hi
    have : a i ≠ p := fun e => hp ((m p).mpr ⟨i, hi, e⟩)
    simp [upd, this]
  intro i hi hi0
  simp only
  rw [hv i hi, hv _ (by omega)]
  exact o i hi hi0

theorem Inv.add {cmp : V → V → Int} (t : Total cmp) {h : Heap V} {s : List Nat} (i : Inv cmp h s) {p fuel : Nat}
    (hp : p ∉ s) (hf : s.length < fuel) : ∃ h', h.add cmp fuel p = some h' ∧ Inv cmp h' (p :: s) ∧ h'.val = h.val := by
  obtain ⟨⟨a, r, o, m⟩, nd⟩ := i
  obtain ⟨h', b, e1, e2, e3, e4, e5⟩ := add_spec t (e := p) r o (fun i hi e => hp ((m p).mpr ⟨i, hi, e⟩)) hf
  refine ⟨h', e1, ⟨⟨b, e2, by rw [e4]; exact e5, fun q => ?_⟩, List.nodup_cons.mpr ⟨hp, nd⟩⟩, e4⟩
  rw [List.length_cons, ← e3 q, List.mem_cons, m q]
  constructor
  · rintro (rfl | ⟨i, hi, rfl⟩)
    · exact ⟨s.length, by omega, by simp [put]⟩
    · exact ⟨i, by omega, by simp [put]; omega⟩
  · rintro ⟨i, hi, rfl⟩
    by_cases h1 : i = s.length
    · left; simp [put, h1]
    · right; exact ⟨i, by omega, by simp [put, h1]⟩

theorem length_filter_ne {s : List Nat} (nd : s.Nodup) {p : Nat} (hp : p ∈ s) : (s.filter (· ≠ p)).length = s.length - 1 := by
  have h1 : s.filter (· ≠ p) = s.erase p := by
    rw [nd.erase_eq_filter]
    congr 1
    funext x
    by_cases e : x = p <;> simp [bne, e]
  rw [h1, List.length_erase_of_mem hp]

theorem Inv.remove {cmp : V → V → Int} (t : Total cmp) {h : Heap V} {s : List Nat} (i : Inv cmp h s) {p fuel : Nat}
    (hp : p ∈ s) (hf : s.length ≤ fuel) :
    ∃ h', h.remove cmp fuel p = some h' ∧ Inv cmp h' (s.filter (· ≠ p)) ∧ h'.val = h.val := by
  obtain ⟨⟨a, r, o, m⟩, nd⟩ := i
  obtain ⟨k, hk, rfl⟩ := (m p).mp hp
  obtain ⟨h', b, e1, e2, e3, e4, e5⟩ := remove_spec t r o hk hf
  have hl := length_filter_ne nd hp
  refine ⟨h', e1, ⟨⟨b, by rw [hl]; exact e2, by rw [e4, hl]; exact e5, fun q => ?_⟩, nd.filter _⟩, e4⟩
  rw [hl, e3 q, List.mem_filter, m q]
  simp

theorem Inv.run {cmp : V → V → Int} (t : Total cmp) : ∀ (ops : List (Op V)) {h : Heap V} {s : List Nat} {fuel : Nat},
    Inv cmp h s → Proper s ops → s.length + adds ops ≤ fuel →
    ∃ h', h.run cmp fuel ops = some h' ∧ Inv cmp h' (entries s ops) ∧ h'.val = keys h.val ops
  | [], h, _, _, i, _, _ => ⟨h, rfl, i, rfl⟩
  | .key p v :: ops, h, s, fuel, i, hp, hf => by
    obtain ⟨h', e1, e2, e3⟩ := Inv.run t ops (i.key (v := v) hp.1) hp.2 hf
    exact ⟨h', e1, e2, e3⟩
  | .add p :: ops, h, s, fuel, i, hp, hf => by
    simp only [adds] at hf
    obtain ⟨h1, a1, a2, a3⟩ := i.add t hp.1 (show s.length < fuel by omega)
    obtain ⟨h', e1, e2, e3⟩ := Inv.run t ops (fuel := fuel) a2 hp.2 (by rw [List.length_cons]; omega)
    refine ⟨h', ?_, e2, by rw [e3, a3]; rfl⟩
    rw [Heap.run]
    simp only [Heap.step, a1]
    exact e1
  | .remove p :: ops, h, s, fuel, i, hp, hf => by
    simp only [adds] at hf
    obtain ⟨h1, a1, a2, a3⟩ := i.remove t hp.1 (show s.length ≤ fuel by omega)
    obtain ⟨h', e1, e2, e3⟩ := Inv.run t ops (fuel := fuel) a2 hp.2
      (by rw [length_filter_ne i.nodup hp.1]; omega)
    refine ⟨h', ?_, e2, by rw [e3, a3]; rfl⟩
    rw [Heap.run]
    simp only [Heap.step, a1]
    exact e1

theorem Rep.above {h : Heap V} {a : Nat → Nat} {n : Nat} (r : Rep h a n) : ∀ (i : Nat), i < n →
    ∃ d, Above h (a i) (a 0) d ∧ 2 ^ d ≤ i + 1 := by
  intro i
  induction i using Nat.strongRecOn with
  | ind i ih =>
    intro hi
    by_cases h0 : i = 0
    · subst h0; exact ⟨0, .here _, by simp⟩
    · obtain ⟨d, e1, e2⟩ := ih ((i - 1) / 2) (by omega) (by omega)
      refine ⟨d + 1, .up (by rw [r.up i hi, if_neg h0]) e1, ?_⟩
      rw [Nat.pow_succ]; omega

theorem Inv.linked {cmp : V → V → Int} {h : Heap V} {s : List Nat} (i : Inv cmp h s) : Linked h s := by
  obtain ⟨⟨a, r, o, m⟩, nd⟩ := i
  refine ⟨?_, ?_, ?_, ?_, ?_, ?_⟩
  · intro p hp q hq
    obtain ⟨k, hk, rfl⟩ := (m p).mp hp
    rw [r.left k hk] at hq
    split at hq
    · rename_i hl
      obtain rfl := Option.some.inj hq
      refine ⟨(m _).mpr ⟨_, hl, rfl⟩, ?_⟩
      rw [r.up _ hl, if_neg (by omega)]
      congr 2; omega
    · cases hq
  · intro p hp q hq
    obtain ⟨k, hk, rfl⟩ := (m p).mp hp
    rw [r.right k hk] at hq
    split at hq
    · rename_i hl
      obtain rfl := Option.some.inj hq
      refine ⟨(m _).mpr ⟨_, hl, rfl⟩, ?_⟩
      rw [r.up _ hl, if_neg (by omega)]
      congr 2; omega
    · cases hq
  · intro p hp q hq hr
    obtain ⟨k, hk, rfl⟩ := (m p).mp hp
    rw [r.left k hk] at hq
    rw [r.right k hk] at hr
    split at hq
    · rename_i hl
      split at hr
      · rename_i hl2
        have := r.inj _ _ hl hl2 ((Option.some.inj hq).trans (Option.some.inj hr).symm)
        omega
      · cases hr
    · cases hq
  · intro p hp q hq
    obtain ⟨k, hk, rfl⟩ := (m p).mp hp
    rw [r.up k hk] at hq
    split at hq
    · cases hq
    · rename_i h0
      obtain rfl := Option.some.inj hq
      refine ⟨(m _).mpr ⟨_, by omega, rfl⟩, ?_⟩
      by_cases hp : k % 2 = 1
      · left; exact (r.isLeft hk h0).mpr hp
      · right; exact (r.isRight hk h0).mpr (by omega)
  · intro p hp
    obtain ⟨k, hk, rfl⟩ := (m p).mp hp
    rw [r.up k hk, r.top, if_neg (show s.length ≠ 0 by omega)]
    constructor
    · intro e
      split at e
      · rename_i h0; rw [h0]
      · cases e
    · intro e
      have := r.inj _ _ (by omega) hk (Option.some.inj e)
      rw [if_pos this.symm]
  · intro p hp
    obtain ⟨k, hk, rfl⟩ := (m p).mp hp
    obtain ⟨d, e1, e2⟩ := r.above k hk
    exact ⟨a 0, d, by rw [r.top, if_neg (by omega)], e1, by omega⟩

/-! ## The comparisons in use -/

theorem total_cmpTimeval : Total cmpTimeval := by
  constructor
  · intro x y
    simp only [cmpTimeval]
    repeat' split
    all_goals omega
  · intro x y z
    simp only [cmpTimeval]
    repeat' split
    all_goals omega

theorem total_cmpEnd : Total cmpEnd := by
  constructor
  · intro x y
    simp only [cmpEnd]
    repeat' split
    all_goals omega
  · intro x y z
    simp only [cmpEnd]
    repeat' split
    all_goals omega

/-! ## C10 -/

/-- C10.  Any sequence of operations that adds absent nodes and removes present ones runs without following a `NULL`
pointer, in loops of at most `fuel` rounds for any `fuel` not below the number of additions.  Afterwards the keys are the
ones the program gave; the top is `NULL` when no entry is present and otherwise an entry not after any other entry; and the
links make up one tree of the entries that has the top as its root. -/
theorem C10_heap {cmp : V → V → Int} (anti : ∀ x y, cmp x y < 0 ↔ cmp y x > 0)
    (trans : ∀ x y z, cmp x y ≤ 0 → cmp y z ≤ 0 → cmp x z ≤ 0) (val : Nat → V) (left right up : Nat → Option Nat)
    (ops : List (Op V)) (proper : Proper [] ops) (fuel : Nat) (hf : adds ops ≤ fuel) :
    ∃ h, (Heap.init val left right up).run cmp fuel ops = some h
      ∧ h.val = keys val ops
      ∧ (h.top = none ↔ entries [] ops = [])
      ∧ (∀ t, h.top = some t → t ∈ entries [] ops ∧ ∀ e ∈ entries [] ops, cmp (keys val ops t) (keys val ops e) ≤ 0)
      ∧ Linked h (entries [] ops) := by
  have t : Total cmp := ⟨anti, trans⟩
  obtain ⟨h, e1, e2, e3⟩ := Inv.run t ops (Inv.init cmp val left right up) proper (by simpa using hf)
  refine ⟨h, e1, e3, ?_, ?_, e2.linked⟩
  · obtain ⟨⟨a, r, o, m⟩, nd⟩ := e2
    rw [r.top]
    cases entries [] ops with
    | nil => simp
    | cons x l => simp
  · obtain ⟨⟨a, r, o, m⟩, nd⟩ := e2
    intro x hx
    rw [r.top] at hx
    split at hx
    · cases hx
    · rename_i hn
      obtain rfl := Option.some.inj hx
      refine ⟨(m _).mpr ⟨0, by omega, rfl⟩, fun e he => ?_⟩
      obtain ⟨k, hk, rfl⟩ := (m e).mp he
      have e3' : keys val ops = h.val := e3.symm
      rw [e3']
      exact o.min t k hk

/-- C10 for the timers of the selector, ordered by time. -/
theorem C10_timers (val : Nat → Int × Int) (left right up : Nat → Option Nat) (ops : List (Op (Int × Int)))
    (proper : Proper [] ops) : ∃ h, (Heap.init val left right up).run cmpTimeval (adds ops) ops = some h
      ∧ (h.top = none ↔ entries [] ops = [])
      ∧ ∀ t, h.top = some t → t ∈ entries [] ops ∧ ∀ e ∈ entries [] ops,
          (keys val ops t).1 < (keys val ops e).1
          ∨ (keys val ops t).1 = (keys val ops e).1 ∧ (keys val ops t).2 ≤ (keys val ops e).2 := by
  obtain ⟨h, e1, _, e3, e4, _⟩ := C10_heap total_cmpTimeval.anti total_cmpTimeval.trans val left right up ops proper
    (adds ops) (Nat.le_refl _)
  refine ⟨h, e1, e3, fun t ht => ⟨(e4 t ht).1, fun e he => ?_⟩⟩
  have := (e4 t ht).2 e he
  simp only [cmpTimeval] at this
  repeat' split at this
  all_goals omega

/-- C10 for the timers of Windows, ordered by their end. -/
theorem C10_winTimers (val : Nat → Nat) (left right up : Nat → Option Nat) (ops : List (Op Nat))
    (proper : Proper [] ops) : ∃ h, (Heap.init val left right up).run cmpEnd (adds ops) ops = some h
      ∧ (h.top = none ↔ entries [] ops = [])
      ∧ ∀ t, h.top = some t → t ∈ entries [] ops ∧ ∀ e ∈ entries [] ops, keys val ops t ≤ keys val ops e := by
  obtain ⟨h, e1, _, e3, e4, _⟩ := C10_heap total_cmpEnd.anti total_cmpEnd.trans val left right up ops proper
    (adds ops) (Nat.le_refl _)
  refine ⟨h, e1, e3, fun t ht => ⟨(e4 t ht).1, fun e he => ?_⟩⟩
  have := (e4 t ht).2 e he
  simp only [cmpEnd] at this
  repeat' split at this
  all_goals omega

/-- The example: three timers of Windows and one removed again. -/
example : ((Heap.init (fun p => 90 - p) (fun _ => none) (fun _ => none) (fun _ => none)).run cmpEnd 8
      [.add 0, .add 1, .add 2, .remove 2]).map (fun h => (h.top, h.last)) = some (some 1, some 0) := by
  decide +kernel

/-- The operations of the example: seven timers, the third removed from the middle, then the first from the top, and one
started again. -/
def exOps : List (Op (Int × Int)) :=
  [.key 0 (5, 0), .add 0, .key 1 (3, 7), .add 1, .key 2 (9, 1), .add 2, .key 3 (1, 5), .add 3, .key 4 (3, 6), .add 4,
   .key 5 (2, 0), .add 5, .key 6 (8, 8), .add 6, .remove 2, .remove 3, .key 3 (4, 4), .add 3, .remove 5]

theorem exOps_proper : Proper [] exOps := by simp [Proper, exOps]


/-- The example: after the operations the top is the timer at (3, 6), ahead of the one at (3, 7), and its tree has the five
timers left. -/
example : ((Heap.init (fun _ => (0, 0)) (fun _ => none) (fun _ => none) (fun _ => none)).run cmpTimeval 8 exOps).map
      (fun h => (h.top, h.last, h.left 4, h.right 4)) = some (some 4, some 6, some 1, some 3)
    ∧ ((Heap.init (fun _ => (0, 0)) (fun _ => none) (fun _ => none) (fun _ => none)).run cmpTimeval 8 exOps).map
      (fun h => (h.left 1, h.right 1, h.up 0)) = some (some 0, some 6, some 1)
    ∧ entries [] exOps = [3, 6, 4, 1, 0] := by
  refine ⟨?_, ?_, ?_⟩
  · decide +kernel
  · decide +kernel
  · decide

/-- The condition on the operations is needed: the heap itself does not check, and adding an entry a second time makes the
tree a circle that a loop follows without end. -/
example : ((Heap.init (fun p => if p = 0 then (1, 0) else (2, 0)) (fun _ => none) (fun _ => none) (fun _ => none)).run
      cmpTimeval 100 [.add 0, .add 1, .add 0]).isNone = true := by
  decide +kernel

end Gensio.Heap
