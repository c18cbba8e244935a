import Verif.Lemmas.DefaultsStep
/-!
# Lemmas about the store of default values: sequences of calls
-/
namespace Gensio.Defaults

theorem udp_clear (m : M) : m.udp.clear = m.clear := by
  funext n
  simp only [M.clear, M.udp, M.at]
  by_cases hn : n = "reuseaddr"
  · subst hn
    cases m "reuseaddr" <;> simp [Info.with]
  · simp [hn]

theorem lset_nodata {s s' : S} {cls name strval intval fail r} (hs : s.lset cls name strval intval fail = some (s', r))
    (hnd : ∀ d e, s.lookup name = some (d, e) → e.ty ≠ .data) (h : NoData s) : NoData s' := by
  unfold S.lset at hs
  cases hl : s.lookup name with
  | none => rw [hl] at hs; cases hs; exact h
  | some x =>
    obtain ⟨d, e⟩ := x
    have ht := hnd d e hl
    have put : ∀ (m : Mem) (e' : Ent), e'.ty = e.ty → NoData (({ s with mem := m }).put d name e') := by
      intro m e' he x hx
      have hp : e'.ty = .data → e'.classes = [] := fun h1 => absurd (he ▸ h1) ht
      cases d with
      | true =>
        simp only [S.put, if_true] at hx
        rcases hx with hx | hx
        · exact mem_putEnt (P := fun e => e.ty = .data → e.classes = []) _ (fun y hy => h y (.inl hy)) hp x hx
        · exact h x (.inr hx)
      | false =>
        simp only [S.put, Bool.false_eq_true, if_false] at hx
        rcases hx with hx | hx
        · exact h x (.inl hx)
        · exact mem_putEnt (P := fun e => e.ty = .data → e.classes = []) _ (fun y hy => h y (.inr hy)) hp x hx
    rw [hl] at hs
    simp only at hs
    split at hs
    · cases hs
    · cases hs; exact h
    · split at hs
      · obtain ⟨⟨v, m⟩, _, he⟩ := Option.map_eq_some_iff.1 hs
        cases he; exact put _ _ rfl
      · split at hs
        · obtain ⟨⟨v, m⟩, _, he⟩ := Option.map_eq_some_iff.1 hs
          cases he; exact put _ _ rfl
        · split at hs
          · obtain ⟨m, _, he⟩ := Option.map_eq_some_iff.1 hs
            cases he; exact h
          · split at hs
            · obtain ⟨m, _, he⟩ := Option.bind_eq_some_iff.1 hs
              obtain ⟨m, _, he⟩ := Option.map_eq_some_iff.1 he
              cases he; exact h
            · obtain ⟨⟨v, m⟩, _, he⟩ := Option.map_eq_some_iff.1 hs
              cases he; exact put _ _ rfl

/-- The caller keeps to the rules: data has the length that is said, and no data is asked for. -/
def Fair (s : S) : Op → Prop
  | .add _ ty strval intval _ _ _ => ty = .data → strval = none ∨ 0 ≤ intval ∧ Given strval intval
  | .set _ name strval intval => ∀ d e, s.lookup name = some (d, e) → e.ty = .data → intval < 0 ∨ Given strval intval
  | .get _ _ _ ty => ty ≠ .data
  | _ => True

/-- The calls that lose memory: resets while data has values for classes, and the deletion of a default that was made with a
string. -/
def Leaky (s : S) : Op → Prop
  | .reset | .cleanup => ¬ NoData s
  | .del none name _ => ∃ e ∈ s.added, e.name = name ∧ e.dflt.str ≠ none
  | _ => False

theorem init_lookup {s : S} {leak} (h : Inv s leak) {d e} (hl : s.lookup "reuseaddr" = some (d, e)) : e.ty = .bool := by
  obtain ⟨x, hx, ht⟩ := h.reuse
  rcases lookup_some hl with ⟨_, h1⟩ | ⟨_, h1, _⟩
  · rw [h1] at hx; cases hx; exact ht
  · rw [h1] at hx; cases hx

/-- After `call_once`. -/
theorem once_spec {s : S} {leak} (h : Inv s leak) (ifail : Option Nat) :
    ∃ s', s.once ifail = some s' ∧ Inv s' leak ∧ s'.up = true ∧ abs s' = abs s ∧ s'.added = s.added ∧ (NoData s → NoData s') ∧
      (∀ op, Fair s op → Fair s' op) := by
  unfold S.once
  cases hu : s.up with
  | true => exact ⟨s, rfl, h, hu, rfl, rfl, id, fun _ => id⟩
  | false =>
    simp only [Bool.false_eq_true, if_false]
    unfold S.init
    have hal : s.lock = false := h.upLock hu
    have ha0 : abs s = (absR s).udp := by simp [abs, hu]
    by_cases hf : ifail = some 0
    · rw [if_pos hf]
      refine ⟨_, rfl, ⟨h.heap, h.okB, h.okA, h.ndA, h.owned, h.reuse, .inr rfl, by simp, by simp, fun _ => h.cleanB hal, fun _ => h.cleanA hal, h.stat⟩,
        rfl, ?_, rfl, id, ?_⟩
      · rw [ha0]; simp [abs]; rfl
      · intro op; cases op <;> exact id
    · rw [if_neg hf]
      have h0 : Inv { s with up := true, lock := true } leak :=
        ⟨h.heap, h.okB, h.okA, h.ndA, h.owned, h.reuse, h.rv, by simp, by simp, by simp, by simp, h.stat⟩
      have hr0 : absR { s with up := true, lock := true } = absR s := rfl
      obtain ⟨e, hb, ht⟩ := h.reuse
      have hlk : s.lookup "reuseaddr" = some (true, e) := by simp only [S.lookup, hb]
      have hlk0 : S.lookup { s with up := true, lock := true } "reuseaddr" = some (true, e) := hlk
      obtain ⟨s', r, q, i, sm, o⟩ := lset_spec h0 rfl (some "udp") "reuseaddr" none 0 (ifail.map (· - 1))
        (fun d x hx hd => by rw [hlk0] at hx; cases hx; rw [ht] at hd; cases hd)
      have habs : absR s "reuseaddr" = some (absE false e) := by simp [absR, hlk]
      have hcall : (absR s).call (.set (some "udp") "reuseaddr" none 0) = ((absR s).udp, .err .ok) := by
        simp [M.call, habs, absE, ht, taken, M.udp]
      rw [hr0, hcall] at o
      have hadd : s'.added = s.added := by
        unfold S.lset at q
        rw [hlk0] at q
        simp only at q
        split at q
        · cases q
        · cases q; rfl
        · split at q
          · obtain ⟨⟨v, m⟩, _, he⟩ := Option.map_eq_some_iff.1 q
            cases he; rfl
          · split at q
            · obtain ⟨m, _, he⟩ := Option.map_eq_some_iff.1 q
              cases he; rfl
            · split at q
              · obtain ⟨m, _, he⟩ := Option.bind_eq_some_iff.1 q
                obtain ⟨m, _, he⟩ := Option.map_eq_some_iff.1 he
                cases he; rfl
              · obtain ⟨⟨v, m⟩, _, he⟩ := Option.map_eq_some_iff.1 q
                cases he; rfl
      have hr : r = .ok ∨ r = .nomem := by
        rcases o with ⟨rfl, _⟩ | o
        · exact .inr rfl
        · injection o with _ o2; injection o2 with o3; exact .inl o3
      refine ⟨{ s' with rv := r }, by simp [q], ⟨i.heap, i.okB, i.okA, i.ndA, i.owned, i.reuse, hr, fun _ _ => sm.lock, ?_, ?_, ?_, i.stat⟩, sm.up, ?_, hadd, ?_, ?_⟩
      · intro hx; rw [show s'.up = true from sm.up] at hx; cases hx
      · intro hx; rw [show s'.lock = true from sm.lock] at hx; cases hx
      · intro hx; rw [show s'.lock = true from sm.lock] at hx; cases hx
      · rw [ha0]
        have hup : s'.up = true := sm.up
        have e1 : absR { s' with rv := r } = absR s' := rfl
        rcases o with ⟨rfl, o⟩ | o
        · rw [abs, if_neg (by simp), e1, o]
        · injection o with o1 o2
          injection o2 with o3
          subst o3
          rw [abs, if_pos ⟨hup, rfl⟩, e1, o1]
      · intro nd
        have : NoData s' := lset_nodata q (fun d x hx => by rw [hlk0] at hx; cases hx; rw [ht]; decide) nd
        exact this
      · intro op
        cases op with
        | set c name st iv =>
          intro hF d x hx hd
          -- the type of a default is the same
          have hk : ((absR { s' with rv := r }) name).map (·.ty) = ((absR s) name).map (·.ty) := by
            have e1 : absR { s' with rv := r } = absR s' := rfl
            rw [e1]
            rcases o with ⟨_, o⟩ | o
            · rw [o]
            · injection o with o1 _
              rw [o1]
              simp only [M.udp, M.at]
              by_cases hn : name = "reuseaddr"
              · subst hn; simp [habs, Info.with]
              · simp [hn]
          simp only [absR, hx] at hk
          cases hsl : s.lookup name with
          | none => simp [hsl] at hk
          | some y =>
            simp [hsl, absE] at hk
            exact hF y.1 y.2 hsl (hk ▸ hd)
        | _ => exact id

/-- One call. -/
theorem step_spec {s : S} {leak} (h : Inv s leak) (c : Call) (fair : Fair s c.op) :
    ∃ s' a leak', step s c = some (s', a) ∧ Inv s' leak' ∧ (∀ i, leak i ≤ leak' i) ∧ (¬ Leaky s c.op → leak' = leak) ∧
      ((a = .err .nomem ∧ abs s' = abs s) ∨ (abs s', a) = (abs s).call c.op) := by
  have rest : (c.op ≠ .cleanup) → (∀ i, c.op ≠ .release i) →
      ∃ s' a leak', (s.once c.ifail).bind (fun s => if s.rv ≠ .ok then some (s, Ans.err s.rv) else s.call c.fail c.op) = some (s', a) ∧
      Inv s' leak' ∧ (∀ i, leak i ≤ leak' i) ∧ (¬ Leaky s c.op → leak' = leak) ∧
      ((a = .err .nomem ∧ abs s' = abs s) ∨ (abs s', a) = (abs s).call c.op) := by
    intro hc hr
    obtain ⟨s1, q, i1, up1, ab1, ad1, nd1, fa1⟩ := once_spec h c.ifail
    rw [q]
    simp only [Option.bind_some]
    by_cases hrv : s1.rv = .ok
    · rw [if_neg (by simp [hrv])]
      have hab : abs s1 = absR s1 := by simp [abs, up1, hrv]
      have hlock := i1.lockUp up1 hrv
      have hf := fa1 _ fair
      have hs : ∀ {x : S}, Same s1 x → abs x = absR x := by
        intro x sx
        simp [abs, sx.up, sx.rv, up1, hrv]
      rw [← ab1, hab]
      unfold S.call
      cases hop : c.op with
      | add name ty strval intval min max enums =>
        rw [hop] at hf
        obtain ⟨s', r, q, i', sm, o⟩ := add_spec i1 hlock name ty strval intval min max enums c.fail hf
        refine ⟨s', .err r, leak, by simp [q], i', fun _ => Nat.le_refl _, fun _ => rfl, ?_⟩
        rw [hs sm]
        rcases o with ⟨rfl, o⟩ | o
        · exact .inl ⟨rfl, o⟩
        · exact .inr o
      | set cls name strval intval =>
        rw [hop] at hf
        obtain ⟨s', r, q, i', sm, o⟩ := lset_spec i1 hlock cls name strval intval c.fail hf
        refine ⟨s', .err r, leak, by simp [q], i', fun _ => Nat.le_refl _, fun _ => rfl, ?_⟩
        rw [hs sm]
        rcases o with ⟨rfl, o⟩ | o
        · exact .inl ⟨rfl, o⟩
        · exact .inr o
      | get cls name classonly ty =>
        rw [hop] at hf
        obtain ⟨s', a, q, i', sm, ea, o⟩ := get_spec i1 cls name classonly ty c.fail hf
        refine ⟨s', a, leak, q, i', fun _ => Nat.le_refl _, fun _ => rfl, ?_⟩
        rw [hs sm]
        rcases o with rfl | o
        · exact .inl ⟨rfl, ea⟩
        · exact .inr o
      | del cls name delclasses =>
        obtain ⟨s', r, leak', q, i', sm, le, nl, o⟩ := del_spec i1 hlock cls name delclasses
        refine ⟨s', .err r, leak', by simp [q], i', le, fun hl => nl ?_, ?_⟩
        · intro hcn e he hn
          rw [ad1] at he
          subst hcn
          rw [hop] at *
          apply Classical.byContradiction
          intro hd
          exact hl ⟨e, he, hn, hd⟩
        · rw [hs sm]; exact .inr o
      | reset =>
        obtain ⟨s', leak', q, i', sm, le, nl, o, _⟩ := reset_spec i1
        refine ⟨s', .err .ok, leak', by simp [q], i', le, fun hl => nl (nd1 ?_), ?_⟩
        · exact Classical.byContradiction fun hx => hl hx
        · rw [hs sm]; right; simp [M.call, o]
      | cleanup => exact absurd hop hc
      | release i => exact absurd hop (hr i)
    · rw [if_pos hrv]
      rcases i1.rv with hx | hx
      · exact absurd hx hrv
      · exact ⟨s1, _, leak, by rw [hx], i1, fun _ => Nat.le_refl _, fun _ => rfl, .inl ⟨rfl, ab1⟩⟩
  unfold step
  cases hop : c.op with
  | cleanup =>
    obtain ⟨s', leak', q, i', sm, le, nl, o, cb, ca, _⟩ := reset_spec h
    refine ⟨{ s' with lock := false, up := false }, .err .ok, leak', by simp [q], ?_, le, fun hl => nl ?_, .inr ?_⟩
    · exact ⟨i'.heap, i'.okB, i'.okA, i'.ndA, i'.owned, i'.reuse, i'.rv, by simp, by simp, fun _ => cb, fun _ => ca, i'.stat⟩
    · exact Classical.byContradiction fun hx => hl hx
    · have e1 : absR { s' with lock := false, up := false } = absR s' := rfl
      have e2 : (abs s).clear = (absR s).clear := by
        unfold abs; split
        · rfl
        · exact udp_clear _
      simp only [M.call, e2]
      rw [abs, if_neg (by simp), e1, o]
  | release i =>
    simp only
    by_cases hi : i ∈ s.user
    · rw [if_pos hi]
      have hpos := List.count_pos_iff.2 hi
      obtain ⟨m, q, hm⟩ := free_heap (m := s.mem) (j := i)
        (X := fun j => entCnt j s.builtin + entCnt j s.added + (s.user.erase i).count j + leak j)
        (h.heap.eqX (fun j => by
          simp only [List.count_erase, one]
          by_cases e : i = j
          · subst e; simp; omega
          · have e' : ¬ j = i := fun x => e x.symm
            simp [e, e']))
      refine ⟨{ s with mem := m, user := s.user.erase i }, .err .ok, leak, by simp only [q, Option.map_some], ⟨hm, h.okB, h.okA, h.ndA, h.owned, h.reuse, h.rv, h.lockUp, h.upLock, h.cleanB, h.cleanA, h.stat⟩,
        fun _ => Nat.le_refl _, fun _ => rfl, .inr rfl⟩
    · rw [if_neg hi]
      exact ⟨s, _, leak, rfl, h, fun _ => Nat.le_refl _, fun _ => rfl, .inr rfl⟩
  | add name ty strval intval min max enums => rw [hop] at rest; exact rest (by simp) (by simp)
  | set cls name strval intval => rw [hop] at rest; exact rest (by simp) (by simp)
  | get cls name classonly ty => rw [hop] at rest; exact rest (by simp) (by simp)
  | del cls name delclasses => rw [hop] at rest; exact rest (by simp) (by simp)
  | reset => rw [hop] at rest; exact rest (by simp) (by simp)

/-- All calls of a sequence have the property in the state they are made in. -/
def All (P : S → Op → Prop) : S → List Call → Prop
  | _, [] => True
  | s, c :: l => P s c.op ∧ ∀ s' a, step s c = some (s', a) → All P s' l

/-- The answers of a sequence of calls are those of the map, but for calls that had no memory and did nothing. -/
inductive Answers : M → List Call → List Ans → M → Prop
  | nil {m} : Answers m [] [] m
  | nomem {m c l as m'} : Answers m l as m' → Answers m (c :: l) (.err .nomem :: as) m'
  | call {m c l as m'} : Answers (m.call c.op).1 l as m' → Answers m (c :: l) ((m.call c.op).2 :: as) m'

theorem run_spec (l : List Call) : ∀ {s : S} {leak}, Inv s leak → All Fair s l →
    ∃ s' as leak', run s l = some (s', as) ∧ Inv s' leak' ∧ (∀ i, leak i ≤ leak' i) ∧
      (All (fun s o => ¬ Leaky s o) s l → leak' = leak) ∧ Answers (abs s) l as (abs s') := by
  induction l with
  | nil => intro s leak h _; exact ⟨s, [], leak, rfl, h, fun _ => Nat.le_refl _, fun _ => rfl, .nil⟩
  | cons c l ih =>
    intro s leak h hf
    obtain ⟨s1, a, leak1, q1, i1, le1, nl1, o1⟩ := step_spec h c hf.1
    obtain ⟨s2, as, leak2, q2, i2, le2, nl2, o2⟩ := ih i1 (hf.2 s1 a q1)
    refine ⟨s2, a :: as, leak2, by simp [run, q1, q2], i2, fun i => Nat.le_trans (le1 i) (le2 i), fun hl => ?_, ?_⟩
    · rw [nl2 (hl.2 s1 a q1), nl1 hl.1]
    · rcases o1 with ⟨rfl, e⟩ | e
      · rw [e] at o2; exact .nomem o2
      · have e1 : abs s1 = ((abs s).call c.op).1 := congrArg Prod.fst e
        have e2 : a = ((abs s).call c.op).2 := congrArg Prod.snd e
        rw [e2]
        rw [e1] at o2
        exact .call o2

end Gensio.Defaults
