import Verif.Lemmas.LList
/-!
# C08 — linked lists behave as sequences
-/
namespace Gensio.LList

/-- What each operation means on the sequences `σ` (list number ↦ contents).  Adding
needs a link that is in no list, removing and inserting next to a link need that link to
be in that list. -/
inductive Spec : (Nat → List Nat) → Op → (Nat → List Nat) → Prop
  | rm {σ l n a b} : σ l = a ++ n :: b → Spec σ (.rm l n) (fun k => if k = l then a ++ b else σ k)
  | addHead {σ l n} : (∀ k, n ∉ σ k) →
      Spec σ (.addHead l n) (fun k => if k = l then n :: σ l else σ k)
  | addTail {σ l n} : (∀ k, n ∉ σ k) →
      Spec σ (.addTail l n) (fun k => if k = l then σ l ++ [n] else σ k)
  | addNext {σ l c n a b} : (∀ k, n ∉ σ k) → σ l = a ++ c :: b →
      Spec σ (.addNext l c n) (fun k => if k = l then a ++ c :: n :: b else σ k)
  | addPrev {σ l c n a b} : (∀ k, n ∉ σ k) → σ l = a ++ c :: b →
      Spec σ (.addPrev l c n) (fun k => if k = l then a ++ n :: c :: b else σ k)

inductive SpecRun : (Nat → List Nat) → List Op → (Nat → List Nat) → Prop
  | nil {σ} : SpecRun σ [] σ
  | cons {σ op σ' ops σ''} : Spec σ op σ' → SpecRun σ' ops σ'' → SpecRun σ (op :: ops) σ''

theorem insert_eq_addHead (m : Mem) (l n : Nat) (q : Ptr) (hf : isFree m n = true)
    (hq : m.next (.head l) = some q) :
    addHead m l n = some (insertBetween m l (.head l) q n) := by
  have e : upd m.next (Ptr.node n) (some q) (.head l) = some q := by
    rw [upd_other _ _ (by simp), hq]
  simp [addHead, hf, hq, insertBetween, e]

theorem insert_eq_addTail (m : Mem) (l n : Nat) (p : Ptr) (hf : isFree m n = true)
    (hp : m.prev (.head l) = some p) :
    addTail m l n = some (insertBetween m l p (.head l) n) := by
  have e : upd m.prev (Ptr.node n) (some p) (.head l) = some p := by
    rw [upd_other _ _ (by simp), hp]
  simp [addTail, hf, hp, insertBetween, e]

theorem insert_eq_addNext (m : Mem) (l c n : Nat) (q : Ptr) (hf : isFree m n = true)
    (hcn : c ≠ n) (hq : m.next (.node c) = some q) :
    addNext m l c n = some (insertBetween m l (.node c) q n) := by
  have e : upd m.next (Ptr.node n) (some q) (.node c) = some q := by
    rw [upd_other _ _ (by simpa using hcn), hq]
  simp [addNext, hf, hq, insertBetween, e]

theorem insert_eq_addPrev (m : Mem) (l c n : Nat) (p : Ptr) (hf : isFree m n = true)
    (hcn : c ≠ n) (hp : m.prev (.node c) = some p) :
    addPrev m l c n = some (insertBetween m l p (.node c) n) := by
  have e : upd m.prev (Ptr.node n) (some p) (.node c) = some p := by
    rw [upd_other _ _ (by simpa using hcn), hp]
  simp [addPrev, hf, hp, insertBetween, e]

theorem step_rep {m σ op σ'} (h : Rep m σ) (hs : Spec σ op σ') : ∃ m', step m op = some m' ∧ Rep m' σ' := by
  cases hs with
  | @rm l n a b hab =>
    obtain ⟨p, q, h1, h2, h3, h4, h5⟩ := rep_unlink h a b hab
    refine ⟨_, ?_, h5⟩
    have hl : m.list (.node n) = some l := (h.mem l n).mpr (by simp [hab])
    have e : upd m.prev q (some p) (.node n) = some p := by
      rw [upd_other _ _ h4.symm, h2]
    simp [step, LList.rm, hl, h1, h2, e, unlink]
  | @addHead l n hn =>
    obtain ⟨q, hq⟩ : ∃ q, ((σ l).map Ptr.node ++ [Ptr.head l]).head? = some q := by
      cases σ l <;> simp
    obtain ⟨h1, _, h3⟩ := rep_insert h [] (σ l) rfl hn (.head l) q (by simp) hq
    exact ⟨_, insert_eq_addHead m l n q ((isFree_iff h n).mpr hn) h1, h3⟩
  | @addTail l n hn =>
    obtain ⟨p, hp⟩ : ∃ p, (Ptr.head l :: (σ l).map Ptr.node).getLast? = some p :=
      ⟨_, List.getLast?_eq_some_getLast (by simp)⟩
    obtain ⟨_, h2, h3⟩ := rep_insert h (σ l) [] (by simp) hn p (.head l) hp (by simp)
    exact ⟨_, insert_eq_addTail m l n p ((isFree_iff h n).mpr hn) h2, h3⟩
  | @addNext l c n a b hn hab =>
    obtain ⟨q, hq⟩ : ∃ q, (b.map Ptr.node ++ [Ptr.head l]).head? = some q := by
      cases b <;> simp
    have hcn : c ≠ n := by intro e; subst e; exact hn l (by simp [hab])
    obtain ⟨h1, _, h3⟩ := rep_insert h (a ++ [c]) b (by simp [hab]) hn (.node c) q
      (List.getLast?_eq_some_iff.mpr ⟨.head l :: a.map .node, by simp⟩) hq
    refine ⟨_, insert_eq_addNext m l c n q ((isFree_iff h n).mpr hn) hcn h1, ?_⟩
    rw [List.append_assoc] at h3; exact h3
  | @addPrev l c n a b hn hab =>
    obtain ⟨p, hp⟩ : ∃ p, (Ptr.head l :: a.map Ptr.node).getLast? = some p :=
      ⟨_, List.getLast?_eq_some_getLast (by simp)⟩
    have hcn : c ≠ n := by intro e; subst e; exact hn l (by simp [hab])
    obtain ⟨_, h2, h3⟩ := rep_insert h a (c :: b) hab hn p (.node c) hp (by simp)
    exact ⟨_, insert_eq_addPrev m l c n p ((isFree_iff h n).mpr hn) hcn h2, h3⟩

theorem run_rep {ops : List Op} : ∀ {m σ σ'}, Rep m σ → SpecRun σ ops σ' →
    ∃ m', run m ops = some m' ∧ Rep m' σ' := by
  induction ops with
  | nil => intro m σ σ' h hr; cases hr; exact ⟨m, rfl, h⟩
  | cons op ops ih =>
    intro m σ σ' h hr
    cases hr with
    | cons hs hr =>
      obtain ⟨m1, e1, h1⟩ := step_rep h hs
      obtain ⟨m2, e2, h2⟩ := ih h1 hr
      exact ⟨m2, by simp [run, e1, e2], h2⟩

/-- **C08.**  Any history of operations that respect membership, over any number of
lists and links, runs without touching a NULL pointer or failing an assertion; afterwards
forward iteration of every list sees exactly its sequence, backward iteration sees the
reverse (neither walk is endless: it ends after as many steps as there are members) and
the emptiness test is right. -/
theorem C08_list_sequence (ops : List Op) (σ : Nat → List Nat)
    (h : SpecRun (fun _ => []) ops σ) :
    ∃ m, run init ops = some m ∧ ∀ l fuel, (σ l).length < fuel →
      forward m l fuel = some (σ l) ∧ backward m l fuel = some (σ l).reverse ∧
      isEmpty m l = (σ l).isEmpty := by
  obtain ⟨m, e, hr⟩ := run_rep rep_init h
  refine ⟨m, e, ?_⟩
  intro l fuel hf
  have hc := hr.chain l
  refine ⟨walk_chain _ _ l _ _ _ hc hf, ?_, ?_⟩
  · have := chain_reverse _ _ _ hc
    apply walk_chain _ m.next l _ _ _ _ (by simpa using hf)
    simpa [cyc] using this
  · cases hσ : σ l with
    | nil => rw [hσ] at hc; simp [cyc, Chain] at hc; simp [isEmpty, hc]
    | cons x xs =>
      rw [hσ] at hc; simp only [cyc, List.map_cons, List.cons_append, Chain] at hc
      simp [isEmpty, hc.1.1]

/-- **C08, misuse.**  After any such history, adding a link that is in some list and
removing a link from a list it is not in are caught by the assertions. -/
theorem C08_misuse_caught (ops : List Op) (σ : Nat → List Nat)
    (h : SpecRun (fun _ => []) ops σ) (m : Mem) (hm : run init ops = some m) (n : Nat) :
    (∀ k, n ∈ σ k → ∀ l c, addHead m l n = none ∧ addTail m l n = none ∧
      addNext m l c n = none ∧ addPrev m l c n = none) ∧
    (∀ l, n ∉ σ l → LList.rm m l n = none) := by
  obtain ⟨m', e, hr⟩ := run_rep rep_init h
  rw [hm] at e; simp at e; subst e
  constructor
  · intro k hk l c
    have : isFree m n = false := by
      rw [Bool.eq_false_iff]; intro hf; exact (isFree_iff hr n).mp hf k hk
    simp [addHead, addTail, addNext, addPrev, this]
  · intro l hl
    have : m.list (.node n) ≠ some l := fun e => hl ((hr.mem l n).mp e)
    simp [LList.rm, this]

/-- Two lists, four links, an insertion in the middle and a move between lists. -/
example : (run init [.addTail 0 1, .addTail 0 2, .addNext 0 1 3, .addPrev 0 2 4, .rm 0 1,
      .addHead 1 1]).map (fun m => (forward m 0 9, backward m 0 9, forward m 1 9, isEmpty m 1))
    = some (some [3, 4, 2], some [2, 4, 3], some [1], false) := by decide +kernel

/-- Such a history satisfies the hypothesis of `C08_list_sequence`. -/
example : ∃ σ, SpecRun (fun _ => []) [.addTail 0 1, .addNext 0 1 3, .rm 0 1, .addHead 1 1] σ ∧
    σ 0 = [3] ∧ σ 1 = [1] := by
  refine ⟨_, .cons (.addTail (by simp)) (.cons (.addNext (a := []) (b := []) ?_ (by simp))
    (.cons (.rm (a := []) (b := [3]) (by simp)) (.cons (.addHead ?_) .nil))), by simp, by simp⟩
  · intro k; by_cases hk : k = 0 <;> simp [hk]
  · intro k; by_cases hk : k = 0 <;> simp [hk]

end Gensio.LList
