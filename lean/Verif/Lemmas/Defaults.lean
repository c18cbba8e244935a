import Verif.Model.DefaultsSpec
/-!
# Lemmas about the store of default values: memory
-/
namespace Gensio.Defaults

/-! ## Counting blocks -/

def one (j i : Nat) : Nat := if j = i then 1 else 0

def strCnt (i : Nat) : Option Str → Nat
  | some ⟨some j, _⟩ => one j i
  | _ => 0

def clsCnt (i : Nat) : List Cls → Nat
  | [] => 0
  | c :: l => one c.blk i + one c.nblk i + strCnt i c.val.str + clsCnt i l

/-- The strings of classes. -/
def clsStr (i : Nat) : List Cls → Nat
  | [] => 0
  | c :: l => strCnt i c.val.str + clsStr i l

def ownCnt (i : Nat) : Option (Nat × Nat) → Nat
  | none => 0
  | some (d, n) => one d i + one n i

def Ent.cnt (i : Nat) (e : Ent) : Nat :=
  ownCnt i e.own + strCnt i e.dflt.str + strCnt i e.val.str + clsCnt i e.classes

def entCnt (i : Nat) : List Ent → Nat
  | [] => 0
  | e :: l => e.cnt i + entCnt i l

/-- The pointer is not to a constant. -/
def dyn : Option Str → Prop
  | some ⟨none, _⟩ => False
  | _ => True

/-- One entry is well made. -/
structure Ok (e : Ent) : Prop where
  vdyn : dyn e.val.str
  cdyn : ∀ c ∈ e.classes, dyn c.val.str
  plain : e.ty ≠ .str → e.ty ≠ .data → ∀ c ∈ e.classes, c.val.str = none
  cnd : (e.classes.map (·.name)).Nodup
  vplain : e.ty ≠ .str → e.ty ≠ .data → e.val.str = none

/-- Blocks: each is allocated once, the next number is new. -/
structure Heap (m : Mem) (X : Nat → Nat) : Prop where
  cnt : ∀ i, m.live.count i = X i
  uniq : ∀ i, X i ≤ 1
  fresh : ∀ i, m.next ≤ i → X i = 0

theorem Heap.eqX {m : Mem} {X Y : Nat → Nat} (h : Heap m X) (e : ∀ i, X i = Y i) : Heap m Y := by
  have : X = Y := funext e
  rw [← this]; exact h

theorem alloc_heap {m : Mem} {X : Nat → Nat} (h : Heap m X) {fail : Option Nat} {k : Nat} {p : Nat × Mem}
    (ha : m.alloc fail k = some p) : Heap p.2 (fun i => X i + one p.1 i) := by
  unfold Mem.alloc at ha
  split at ha
  · cases ha
  · cases ha
    refine ⟨fun i => ?_, fun i => ?_, fun i hi => ?_⟩
    · simp only [List.count_cons, h.cnt, one]; split <;> simp_all
    · simp only [one]
      split
      · rename_i e; have := h.fresh i (by omega); omega
      · have := h.uniq i; omega
    · simp only [one]
      have hi' : m.next + 1 ≤ i := hi
      rw [if_neg (by omega), h.fresh i (by omega)]

theorem free_heap {m : Mem} {X : Nat → Nat} {j : Nat} (h : Heap m (fun i => X i + one j i)) :
    ∃ m', m.free j = some m' ∧ Heap m' X := by
  have hj : j ∈ m.live := by
    have := h.cnt j
    simp only [one, if_true] at this
    exact List.count_pos_iff.1 (by omega)
  refine ⟨_, by unfold Mem.free; rw [if_pos hj], fun i => ?_, fun i => ?_, fun i hi => ?_⟩
  · have := h.cnt i
    simp only [one] at this
    simp only [List.count_erase]
    by_cases e : j = i
    · simp [e] at this ⊢; omega
    · have e' : ¬ i = j := fun x => e x.symm
      simp [e, e'] at this ⊢; omega
  · have h0 := h.uniq i; exact Nat.le_trans (Nat.le_add_right _ _) h0
  · have h0 := h.fresh i hi; exact (Nat.add_eq_zero_iff.1 h0).1

theorem freeStr_heap {m : Mem} {X : Nat → Nat} {p : Option Str} (h : Heap m (fun i => X i + strCnt i p)) (hd : dyn p) :
    ∃ m', m.freeStr p = some m' ∧ Heap m' X := by
  match p, hd with
  | none, _ => exact ⟨m, rfl, h.eqX (fun i => by simp [strCnt])⟩
  | some ⟨some j, _⟩, _ => exact free_heap (j := j) (h.eqX (fun i => by simp [strCnt]))

theorem readable_of {m : Mem} {X : Nat → Nat} {p : Str} (h : Heap m X) (hc : ∀ i, strCnt i (some p) ≤ X i) :
    m.readable p = true := by
  match p with
  | ⟨none, _⟩ => rfl
  | ⟨some j, _⟩ =>
    have h1 := hc j
    have h2 := h.cnt j
    simp only [strCnt, one, if_true] at h1
    unfold Mem.readable
    simp only [List.contains_iff_mem]
    exact List.count_pos_iff.1 (by omega)

theorem freeClasses_heap (ty : Ty) (l : List Cls) : ∀ {m : Mem} {X : Nat → Nat},
    Heap m (fun i => X i + clsCnt i l) → (∀ c ∈ l, dyn c.val.str) →
    ∃ m', freeClasses ty m l = some m' ∧ Heap m' (fun i => X i + if ty = .str then 0 else clsStr i l) := by
  induction l with
  | nil => intro m X h _; exact ⟨m, rfl, h.eqX (fun i => by simp [clsCnt, clsStr])⟩
  | cons c l ih =>
    intro m X h hd
    obtain ⟨m1, e1, h1⟩ := free_heap (m := m) (j := c.nblk)
      (X := fun i => X i + clsCnt i l + one c.blk i + strCnt i c.val.str) (h.eqX (fun i => by simp only [clsCnt]; omega))
    by_cases ht : ty = .str
    · obtain ⟨m2, e2, h2⟩ := freeStr_heap (m := m1) (p := c.val.str) (X := fun i => X i + clsCnt i l + one c.blk i) h1
        (hd c (by simp))
      obtain ⟨m3, e3, h3⟩ := free_heap (m := m2) (j := c.blk) (X := fun i => X i + clsCnt i l) h2
      obtain ⟨m4, e4, h4⟩ := ih h3 (fun c' hc => hd c' (by simp [hc]))
      refine ⟨m4, ?_, h4.eqX (fun i => by simp [ht])⟩
      simp [freeClasses, e1, ht, e2, e3, ht ▸ e4]
    · obtain ⟨m3, e3, h3⟩ := free_heap (m := m1) (j := c.blk) (X := fun i => (X i + strCnt i c.val.str) + clsCnt i l)
        (h1.eqX (fun i => by omega))
      obtain ⟨m4, e4, h4⟩ := ih h3 (fun c' hc => hd c' (by simp [hc]))
      refine ⟨m4, ?_, h4.eqX (fun i => by simp [ht, clsStr]; omega)⟩
      simp [freeClasses, e1, ht, e3, e4]

theorem delClasses_heap (l : List Cls) : ∀ {m : Mem} {X : Nat → Nat},
    Heap m (fun i => X i + clsCnt i l) → (∀ c ∈ l, dyn c.val.str) → ∃ m', delClasses m l = some m' ∧ Heap m' X := by
  induction l with
  | nil => intro m X h _; exact ⟨m, rfl, h.eqX (fun i => by simp [clsCnt])⟩
  | cons c l ih =>
    intro m X h hd
    obtain ⟨m2, e2, h2⟩ := freeStr_heap (m := m) (p := c.val.str) (X := fun i => X i + clsCnt i l + one c.blk i + one c.nblk i)
      (h.eqX (fun i => by simp only [clsCnt]; omega)) (hd c (by simp))
    obtain ⟨m1, e1, h1⟩ := free_heap (m := m2) (j := c.nblk) (X := fun i => X i + clsCnt i l + one c.blk i) h2
    obtain ⟨m3, e3, h3⟩ := free_heap (m := m1) (j := c.blk) (X := fun i => X i + clsCnt i l) h1
    obtain ⟨m4, e4, h4⟩ := ih h3 (fun c' hc => hd c' (by simp [hc]))
    exact ⟨m4, by simp [delClasses, e1, e2, e3, e4], h4⟩

/-- What a reset of an entry leaks: the strings of the classes of data. -/
def Ent.leak (i : Nat) (e : Ent) : Nat := if e.ty = .str then 0 else clsStr i e.classes

def entLeak (i : Nat) : List Ent → Nat
  | [] => 0
  | e :: l => e.leak i + entLeak i l

/-- What is the same in an entry after a reset. -/
structure Cleared (e e' : Ent) : Prop where
  own : e'.own = e.own
  name : e'.name = e.name
  ty : e'.ty = e.ty
  min : e'.min = e.min
  max : e'.max = e.max
  enums : e'.enums = e.enums
  dflt : e'.dflt = e.dflt
  set : e'.set = false
  classes : e'.classes = []
  ok : Ok e'
  vstr : e.ty = .str → e'.val.str = none

theorem resetEnt_heap {m : Mem} {X : Nat → Nat} {e : Ent} (h : Heap m (fun i => X i + e.cnt i)) (ok : Ok e) :
    ∃ e' m', resetEnt m e = some (e', m') ∧ Heap m' (fun i => X i + e'.cnt i + e.leak i) ∧ Cleared e e' := by
  obtain ⟨m1, e1, h1⟩ := freeClasses_heap e.ty e.classes (m := m)
    (X := fun i => X i + ownCnt i e.own + strCnt i e.dflt.str + strCnt i e.val.str)
    (h.eqX (fun i => by simp only [Ent.cnt]; omega)) ok.cdyn
  by_cases ht : e.ty = .str
  · obtain ⟨m2, e2, h2⟩ := freeStr_heap (m := m1) (p := e.val.str) (X := fun i => X i + ownCnt i e.own + strCnt i e.dflt.str)
      (h1.eqX (fun i => by simp [ht])) ok.vdyn
    refine ⟨_, m2, by simp only [resetEnt, e1, Option.bind_some, if_pos ht, e2, Option.map_some]; rfl, ?_, ?_⟩
    · exact h2.eqX (fun i => by simp [Ent.cnt, Ent.leak, ht, strCnt, clsCnt]; omega)
    · exact ⟨rfl, rfl, rfl, rfl, rfl, rfl, rfl, rfl, rfl, ⟨trivial, by simp, by simp, by simp, fun _ _ => rfl⟩, fun _ => rfl⟩
  · refine ⟨_, m1, by simp only [resetEnt, e1, Option.bind_some, if_neg ht, Option.map_some]; rfl, ?_, ?_⟩
    · exact h1.eqX (fun i => by simp [Ent.cnt, Ent.leak, ht, clsCnt]; omega)
    · exact ⟨rfl, rfl, rfl, rfl, rfl, rfl, rfl, rfl, rfl, ⟨ok.vdyn, by simp, by simp, by simp, ok.vplain⟩, fun h => absurd h ht⟩

/-- Two lists are the same but for a reset. -/
inductive ClearedL : List Ent → List Ent → Prop
  | nil : ClearedL [] []
  | cons {e e' l l'} : Cleared e e' → ClearedL l l' → ClearedL (e :: l) (e' :: l')

theorem resetList_heap (l : List Ent) : ∀ {m : Mem} {X : Nat → Nat}, Heap m (fun i => X i + entCnt i l) → (∀ e ∈ l, Ok e) →
    ∃ l' m', resetList m l = some (l', m') ∧ Heap m' (fun i => X i + entCnt i l' + entLeak i l) ∧ ClearedL l l' := by
  induction l with
  | nil => intro m X h _; exact ⟨[], m, rfl, h.eqX (fun i => by simp [entCnt, entLeak]), .nil⟩
  | cons e l ih =>
    intro m X h ok
    obtain ⟨e', m1, q1, h1, c1⟩ := resetEnt_heap (m := m) (X := fun i => X i + entCnt i l) (e := e)
      (h.eqX (fun i => by simp only [entCnt]; omega)) (ok e (by simp))
    obtain ⟨l', m2, q2, h2, c2⟩ := ih (m := m1) (X := fun i => X i + e'.cnt i + e.leak i) (h1.eqX (fun i => by omega))
      (fun x hx => ok x (by simp [hx]))
    refine ⟨e' :: l', m2, by simp [resetList, q1, q2], h2.eqX (fun i => by simp only [entCnt, entLeak]; omega), .cons c1 c2⟩

theorem ClearedL.names {l l' : List Ent} (h : ClearedL l l') : l'.map (·.name) = l.map (·.name) := by
  induction h with
  | nil => rfl
  | cons a _ ih => simp [a.name, ih]

theorem ClearedL.all {l l' : List Ent} (h : ClearedL l l') :
    ∀ e' ∈ l', ∃ e ∈ l, Cleared e e' := by
  induction h with
  | nil => simp
  | cons a _ ih =>
    intro x hx
    rcases List.mem_cons.1 hx with rfl | hx
    · exact ⟨_, by simp, a⟩
    · obtain ⟨e, he, c⟩ := ih x hx; exact ⟨e, by simp [he], c⟩

theorem ClearedL.find {l l' : List Ent} (h : ClearedL l l') (n : String) :
    (l.find? (·.name = n) = none ∧ l'.find? (·.name = n) = none) ∨
    ∃ e e', l.find? (·.name = n) = some e ∧ l'.find? (·.name = n) = some e' ∧ Cleared e e' := by
  induction h with
  | nil => left; simp
  | @cons e e' l l' a _ ih =>
    by_cases hn : e.name = n
    · right; exact ⟨e, e', by simp [hn], by simp [a.name, hn], a⟩
    · have hn' : ¬ e'.name = n := by rw [a.name]; exact hn
      simpa [List.find?_cons, hn, hn'] using ih

/-! ## Lists of entries and classes -/

theorem find_putEnt {name : String} {e' : Ent} (he : e'.name = name) (n : String) (l : List Ent) :
    (putEnt name e' l).find? (·.name = n) =
      if n = name ∧ (l.find? (·.name = name)).isSome then some e' else l.find? (·.name = n) := by
  induction l with
  | nil => simp [putEnt]
  | cons x l ih =>
    unfold putEnt
    by_cases hx : x.name = name
    · by_cases hn : n = name
      · subst hn; simp [hx, he]
      · have h1 : ¬ name = n := fun h => hn h.symm
        simp [hx, he, hn, h1, List.find?_cons]
    · by_cases hn : n = name
      · subst hn; simp [hx] at ih ⊢; exact ih
      · simp only [hx, if_false, List.find?_cons, hn, false_and] at ih ⊢
        rw [ih]

theorem names_putEnt {name : String} {e' : Ent} (he : e'.name = name) (l : List Ent) :
    (putEnt name e' l).map (·.name) = l.map (·.name) := by
  induction l with
  | nil => rfl
  | cons x l ih =>
    unfold putEnt
    by_cases hx : x.name = name
    · simp [hx, he]
    · simp [hx, ih]

theorem cnt_putEnt {name : String} {e e' : Ent} (l : List Ent) (h : l.find? (·.name = name) = some e) (i : Nat) :
    entCnt i (putEnt name e' l) + e.cnt i = entCnt i l + e'.cnt i := by
  induction l with
  | nil => simp at h
  | cons x l ih =>
    unfold putEnt
    by_cases hx : x.name = name
    · simp [hx] at h; subst h; simp only [hx, if_true, entCnt]; omega
    · simp [hx] at h; have := ih (by simpa using h); simp only [hx, if_false, entCnt]; omega

theorem mem_putEnt {name : String} {e' : Ent} {P : Ent → Prop} (l : List Ent) (h : ∀ x ∈ l, P x) (hp : P e') :
    ∀ x ∈ putEnt name e' l, P x := by
  induction l with
  | nil => simp [putEnt]
  | cons y l ih =>
    unfold putEnt
    split
    · intro x hx
      rcases List.mem_cons.1 hx with rfl | hx
      · exact hp
      · exact h x (by simp [hx])
    · intro x hx
      rcases List.mem_cons.1 hx with rfl | hx
      · exact h _ (by simp)
      · exact ih (fun z hz => h z (by simp [hz])) x hx

theorem cnt_find {name : String} {e : Ent} (l : List Ent) (h : l.find? (·.name = name) = some e) (i : Nat) :
    e.cnt i ≤ entCnt i l := by
  induction l with
  | nil => simp at h
  | cons x l ih =>
    by_cases hx : x.name = name
    · simp [hx] at h; subst h; simp only [entCnt]; omega
    · simp [hx] at h; have := ih (by simpa using h); simp only [entCnt]; omega

theorem cnt_eraseP {name : String} {e : Ent} (l : List Ent) (h : l.find? (·.name = name) = some e) (i : Nat) :
    entCnt i (l.eraseP (·.name = name)) + e.cnt i = entCnt i l := by
  induction l with
  | nil => simp at h
  | cons x l ih =>
    by_cases hx : x.name = name
    · simp [hx] at h; subst h; simp [hx, entCnt]; omega
    · simp [hx] at h; have := ih (by simpa using h); simp [hx, entCnt]; omega

theorem find_eraseP {name : String} (l : List Ent) (nd : (l.map (·.name)).Nodup) (n : String) :
    (l.eraseP (·.name = name)).find? (·.name = n) = if n = name then none else l.find? (·.name = n) := by
  induction l with
  | nil => simp
  | cons x l ih =>
    simp only [List.map_cons, List.nodup_cons] at nd
    by_cases hx : x.name = name
    · by_cases hn : n = name
      · subst hn
        simp only [hx, decide_true, List.eraseP_cons_of_pos, if_true]
        rw [List.find?_eq_none]
        intro y hy he
        apply nd.1
        rw [hx]
        exact List.mem_map.2 ⟨y, hy, by simpa using he⟩
      · have h1 : ¬ name = n := fun h => hn h.symm
        simp [hx, hn, h1]
    · by_cases hn : n = name
      · subst hn; simp [hx] at ih ⊢; exact ih nd.2
      · simp only [hx, decide_false, Bool.false_eq_true, not_false_eq_true, List.eraseP_cons_of_neg, List.find?_cons, hn, if_false]
        rw [ih nd.2]; simp [hn]

theorem find_putCls (c : String) (v : Val) (n : String) (l : List Cls) :
    ((putCls c v l).find? (·.name = n)).map (·.val) =
      if n = c ∧ (l.find? (·.name = c)).isSome then some v else (l.find? (·.name = n)).map (·.val) := by
  induction l with
  | nil => simp [putCls]
  | cons x l ih =>
    unfold putCls
    by_cases hx : x.name = c
    · by_cases hn : n = c
      · subst hn; simp [hx]
      · have h1 : ¬ c = n := fun h => hn h.symm
        simp [hx, hn, h1, List.find?_cons]
    · by_cases hn : n = c
      · subst hn; simp [hx] at ih ⊢; exact ih
      · simp only [hx, if_false, List.find?_cons, hn, false_and] at ih ⊢
        split
        · rfl
        · exact ih

theorem names_putCls (c : String) (v : Val) (l : List Cls) : (putCls c v l).map (·.name) = l.map (·.name) := by
  induction l with
  | nil => rfl
  | cons x l ih => unfold putCls; split <;> simp [ih]

theorem cnt_putCls {c : String} {x : Cls} {v : Val} (l : List Cls) (h : l.find? (·.name = c) = some x) (i : Nat) :
    clsCnt i (putCls c v l) + strCnt i x.val.str = clsCnt i l + strCnt i v.str := by
  induction l with
  | nil => simp at h
  | cons y l ih =>
    unfold putCls
    by_cases hx : y.name = c
    · simp [hx] at h; subst h; simp only [hx, if_true, clsCnt]; omega
    · simp [hx] at h; have := ih (by simpa using h); simp only [hx, if_false, clsCnt]; omega

theorem mem_putCls {c : String} {v : Val} {P : Option Str → Prop} (l : List Cls) (h : ∀ x ∈ l, P x.val.str) (hp : P v.str) :
    ∀ x ∈ putCls c v l, P x.val.str := by
  induction l with
  | nil => simp [putCls]
  | cons y l ih =>
    unfold putCls
    split
    · intro x hx
      rcases List.mem_cons.1 hx with rfl | hx
      · exact hp
      · exact h x (by simp [hx])
    · intro x hx
      rcases List.mem_cons.1 hx with rfl | hx
      · exact h _ (by simp)
      · exact ih (fun z hz => h z (by simp [hz])) x hx

theorem cnt_clsFind {c : String} {x : Cls} (l : List Cls) (h : l.find? (·.name = c) = some x) (i : Nat) :
    strCnt i x.val.str ≤ clsCnt i l := by
  induction l with
  | nil => simp at h
  | cons y l ih =>
    by_cases hx : y.name = c
    · simp [hx] at h; subst h; simp only [clsCnt]; omega
    · simp [hx] at h; have := ih (by simpa using h); simp only [clsCnt]; omega

theorem cnt_clsErase {c : String} {x : Cls} (l : List Cls) (h : l.find? (·.name = c) = some x) (i : Nat) :
    clsCnt i (l.eraseP (·.name = c)) + (one x.blk i + one x.nblk i + strCnt i x.val.str) = clsCnt i l := by
  induction l with
  | nil => simp at h
  | cons y l ih =>
    by_cases hx : y.name = c
    · simp [hx] at h; subst h; simp [hx, clsCnt]; omega
    · simp [hx] at h; have := ih (by simpa using h); simp [hx, clsCnt]; omega

theorem find_clsErase {c : String} (l : List Cls) (nd : (l.map (·.name)).Nodup) (n : String) :
    (l.eraseP (·.name = c)).find? (·.name = n) = if n = c then none else l.find? (·.name = n) := by
  induction l with
  | nil => simp
  | cons x l ih =>
    simp only [List.map_cons, List.nodup_cons] at nd
    by_cases hx : x.name = c
    · by_cases hn : n = c
      · subst hn
        simp only [hx, decide_true, List.eraseP_cons_of_pos, if_true]
        rw [List.find?_eq_none]
        intro y hy he
        apply nd.1
        rw [hx]
        exact List.mem_map.2 ⟨y, hy, by simpa using he⟩
      · have h1 : ¬ c = n := fun h => hn h.symm
        simp [hx, hn, h1]
    · by_cases hn : n = c
      · subst hn; simp [hx] at ih ⊢; exact ih nd.2
      · simp only [hx, decide_false, Bool.false_eq_true, not_false_eq_true, List.eraseP_cons_of_neg, List.find?_cons, hn, if_false]
        rw [ih nd.2]; simp [hn]

theorem clsStr_none {l : List Cls} (h : ∀ c ∈ l, c.val.str = none) (i : Nat) : clsStr i l = 0 := by
  induction l with
  | nil => rfl
  | cons c l ih => simp [clsStr, h c (by simp), strCnt, ih (fun x hx => h x (by simp [hx]))]

end Gensio.Defaults
