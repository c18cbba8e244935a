import Verif.Lemmas.Defaults
/-!
# Lemmas about the store of default values: the calls
-/
namespace Gensio.Defaults

/-! ## The map that a state stands for -/

def absV (ty : Ty) (v : Val) : V :=
  match ty with
  | .str => .str (v.str.map fun p => cstr p.data)
  | .data => .data (v.str.map fun p => p.data.take v.int.toNat)
  | _ => .int v.int

def absE (user : Bool) (e : Ent) : Info :=
  ⟨user, e.ty, e.min, e.max, e.enums, absV e.ty e.dflt, if e.set then some (absV e.ty e.val) else none,
    fun c => ((e.classes.find? (·.name = c)).map (·.val)).map (absV e.ty)⟩

/-- The map as it is in memory. -/
def absR (s : S) : M := fun n => (s.lookup n).map fun x => absE (!x.1) x.2

/-- The map, with what `gensio_default_init` will do if it did not run or failed. -/
def abs (s : S) : M := if s.up = true ∧ s.rv = .ok then absR s else (absR s).udp

theorem lookup_some {s : S} {name : String} {d : Bool} {e : Ent} (h : s.lookup name = some (d, e)) :
    (d = true ∧ s.builtin.find? (·.name = name) = some e) ∨
    (d = false ∧ s.builtin.find? (·.name = name) = none ∧ s.added.find? (·.name = name) = some e) := by
  unfold S.lookup at h
  cases hb : s.builtin.find? (·.name = name) with
  | some x => rw [hb] at h; simp at h; left; simp [h]
  | none =>
    rw [hb] at h
    cases ha : s.added.find? (·.name = name) with
    | none => rw [ha] at h; simp at h
    | some x => rw [ha] at h; simp at h; right; simp [h]

theorem lookup_name {s : S} {name : String} {d : Bool} {e : Ent} (h : s.lookup name = some (d, e)) : e.name = name := by
  rcases lookup_some h with ⟨_, h⟩ | ⟨_, _, h⟩ <;> simpa using List.find?_some h

theorem lookup_put {s : S} {name : String} {d : Bool} {e e' : Ent} (h : s.lookup name = some (d, e)) (he : e'.name = name)
    (n : String) : (s.put d name e').lookup n = if n = name then some (d, e') else s.lookup n := by
  rcases lookup_some h with ⟨rfl, hb⟩ | ⟨rfl, hb, ha⟩
  · simp only [S.put, if_true, S.lookup, find_putEnt he]
    by_cases hn : n = name
    · simp [hn, hb]
    · simp [hn]
  · simp only [S.put, Bool.false_eq_true, if_false, S.lookup, find_putEnt he]
    by_cases hn : n = name
    · simp [hn, hb, ha]
    · simp [hn]

theorem absR_put {s : S} {name : String} {d : Bool} {e e' : Ent} (h : s.lookup name = some (d, e)) (he : e'.name = name)
    (m : Mem) : absR (({ s with mem := m }).put d name e') = (absR s).at name (some (absE (!d) e')) := by
  funext n
  have := lookup_put (s := { s with mem := m }) (e' := e') (by exact h) he n
  simp only [absR, this, M.at]
  by_cases hn : n = name
  · simp [hn]
  · simp [hn, S.lookup]

/-! ## The invariant -/

structure Inv (s : S) (leak : Nat → Nat) : Prop where
  heap : Heap s.mem (fun i => entCnt i s.builtin + entCnt i s.added + s.user.count i + leak i)
  okB : ∀ e ∈ s.builtin, Ok e
  okA : ∀ e ∈ s.added, Ok e
  ndA : (s.added.map (·.name)).Nodup
  owned : ∀ e ∈ s.added, e.own.isSome
  reuse : ∃ e, s.builtin.find? (·.name = "reuseaddr") = some e ∧ e.ty = .bool
  rv : s.rv = .ok ∨ s.rv = .nomem
  lockUp : s.up = true → s.rv = .ok → s.lock = true
  upLock : s.up = false → s.lock = false
  cleanB : s.lock = false → ∀ e ∈ s.builtin, e.set = false ∧ e.classes = [] ∧ e.val.str = none
  cleanA : s.lock = false → ∀ e ∈ s.added, e.set = false ∧ e.classes = []
  stat : ∀ e ∈ s.builtin, e.own = none ∧ (∀ i, strCnt i e.dflt.str = 0) ∧ e.ty ≠ .data

theorem Inv.ok {s : S} {leak} (h : Inv s leak) {name d e} (hl : s.lookup name = some (d, e)) : Ok e := by
  rcases lookup_some hl with ⟨_, h1⟩ | ⟨_, _, h1⟩
  · exact h.okB e (List.mem_of_find?_eq_some h1)
  · exact h.okA e (List.mem_of_find?_eq_some h1)

theorem Inv.le {s : S} {leak} (_h : Inv s leak) {name d e} (hl : s.lookup name = some (d, e)) (i : Nat) :
    e.cnt i ≤ entCnt i s.builtin + entCnt i s.added := by
  rcases lookup_some hl with ⟨_, h1⟩ | ⟨_, _, h1⟩
  · have := cnt_find _ h1 i; omega
  · have := cnt_find _ h1 i; omega

/-- Memory of all but one entry. -/
theorem Inv.split {s : S} {leak} (h : Inv s leak) {name d e} (hl : s.lookup name = some (d, e)) :
    ∃ R : Nat → Nat, Heap s.mem (fun i => R i + e.cnt i) ∧
      ∀ i, R i + e.cnt i = entCnt i s.builtin + entCnt i s.added + s.user.count i + leak i := by
  refine ⟨fun i => entCnt i s.builtin + entCnt i s.added + s.user.count i + leak i - e.cnt i, h.heap.eqX (fun i => ?_), fun i => ?_⟩
  · have := h.le hl i; dsimp only; omega
  · have := h.le hl i; dsimp only; omega

theorem Inv.put {s : S} {leak} (h : Inv s leak) (hlock : s.lock = true) {name d e e'} (hl : s.lookup name = some (d, e))
    {R : Nat → Nat} (hR : ∀ i, R i + e.cnt i = entCnt i s.builtin + entCnt i s.added + s.user.count i + leak i)
    {m : Mem} (hm : Heap m (fun i => R i + e'.cnt i)) (ok : Ok e') (hn : e'.name = e.name) (ho : e'.own = e.own)
    (ht : e'.ty = e.ty) (hdf : e'.dflt = e.dflt) : Inv (({ s with mem := m }).put d name e') leak := by
  have hname : e'.name = name := hn.trans (lookup_name hl)
  rcases lookup_some hl with ⟨rfl, hb⟩ | ⟨rfl, hb, ha⟩
  · simp only [S.put, if_true]
    refine ⟨hm.eqX (fun i => ?_), mem_putEnt _ h.okB ok, h.okA, h.ndA, h.owned, ?_, h.rv, h.lockUp, h.upLock, ?_, h.cleanA, mem_putEnt _ h.stat ?_⟩
    · have := cnt_putEnt (e' := e') _ hb i; have := hR i; dsimp only; omega
    · obtain ⟨x, hx, hxt⟩ := h.reuse
      simp only [find_putEnt hname]
      by_cases hr : "reuseaddr" = name
      · subst hr
        refine ⟨e', by simp [hb], ?_⟩
        rw [hb] at hx; cases hx; rw [ht, hxt]
      · exact ⟨x, by simp [hr, hx], hxt⟩
    · simp [hlock]
    · have := h.stat e (List.mem_of_find?_eq_some hb)
      rw [ho, hdf, ht]; exact this
  · simp only [S.put, Bool.false_eq_true, if_false]
    refine ⟨hm.eqX (fun i => ?_), h.okB, mem_putEnt _ h.okA ok, ?_, mem_putEnt _ h.owned ?_, h.reuse, h.rv, h.lockUp, h.upLock, h.cleanB, ?_, h.stat⟩
    · have := cnt_putEnt (e' := e') _ ha i; have := hR i; dsimp only; omega
    · simp only [names_putEnt hname]; exact h.ndA
    · rw [ho]; exact h.owned e (List.mem_of_find?_eq_some ha)
    · simp [hlock]

theorem Inv.mem {s : S} {leak} (h : Inv s leak) {m : Mem}
    (hm : Heap m (fun i => entCnt i s.builtin + entCnt i s.added + s.user.count i + leak i)) : Inv { s with mem := m } leak :=
  ⟨hm, h.okB, h.okA, h.ndA, h.owned, h.reuse, h.rv, h.lockUp, h.upLock, h.cleanB, h.cleanA, h.stat⟩

/-! ## Values -/

theorem cstr_dup (t : List UInt8) : cstr (dup t) = cstr t := by
  unfold cstr dup
  induction t with
  | nil => rfl
  | cons a t ih =>
    by_cases ha : a = 0
    · simp [ha]
    · simp only [List.takeWhile_cons, ne_eq, ha, not_false_eq_true, decide_true, if_true, List.cons_append] at ih ⊢
      rw [ih]

theorem lookup_find (l : List (List UInt8 × Int)) (t : List UInt8) : (l.find? (·.1 = t)).map (·.2) = l.lookup t := by
  induction l with
  | nil => rfl
  | cons x l ih =>
    obtain ⟨a, z⟩ := x
    by_cases h : a = t
    · subst h; simp
    · have h' : (t == a) = false := by simpa using fun e => h e.symm
      simp [List.lookup, List.find?_cons, h, h', ih]

theorem number_eq (t : List UInt8) :
    number t = if (CLib.strtoul10 t).2 = t ∨ (CLib.strtoul10 t).2 ≠ [] then none else some (toInt (CLib.strtoul10 t).1) := by
  unfold number
  generalize CLib.strtoul10 t = r
  obtain ⟨n, l⟩ := r
  cases l with
  | nil =>
    by_cases ht : t = []
    · simp [ht]
    · have : ¬ ([] : List UInt8) = t := fun h => ht h.symm
      simp [ht, this]
  | cons a l => simp

/-- The caller has the bytes it says it has. -/
def Given (strval : Option (List UInt8)) (intval : Int) : Prop :=
  intval < 2147483647 ∧ intval.toNat ≤ (strval.getD []).length

theorem conv_spec {m : Mem} {X : Nat → Nat} (h : Heap m X) (e : Ent) (strval : Option (List UInt8)) (intval : Int)
    (fail : Option Nat) (fair : e.ty = .data → intval < 0 ∨ Given strval intval) :
    (∃ r, conv m e strval intval fail = some (.error r) ∧
      (r = .nomem ∨ taken e.ty e.min e.max e.enums strval intval = .error r)) ∨
    (∃ ns iv m', conv m e strval intval fail = some (.ok (ns, iv, m')) ∧ Heap m' (fun i => X i + strCnt i ns) ∧ dyn ns ∧
      (e.ty ≠ .str → e.ty ≠ .data → ns = none) ∧
      taken e.ty e.min e.max e.enums strval intval = .ok (absV e.ty ⟨ns, iv⟩)) := by
  have h0 : Heap m (fun i => X i + strCnt i none) := h.eqX (fun i => by simp [strCnt])
  unfold conv
  cases ht : e.ty with
  | enum =>
    cases strval with
    | none => left; exact ⟨_, rfl, .inr rfl⟩
    | some t =>
      simp only [taken, ← lookup_find]
      cases hf : e.enums.find? (·.1 = t) with
      | none => left; simp
      | some x => right; exact ⟨none, x.2, m, by simp, h0, trivial, by simp, by simp [absV]⟩
  | bool =>
    cases strval with
    | none => right; exact ⟨none, _, m, rfl, h0, trivial, by simp, by by_cases hi : intval = 0 <;> simp [taken, absV, hi]⟩
    | some t =>
      simp only [taken, number_eq]
      by_cases h1 : t = trueLc ∨ t = trueUc
      · right
        exact ⟨none, 1, m, by simp [h1], h0, trivial, by simp, by simp [h1, absV]⟩
      · by_cases h2 : t = falseLc ∨ t = falseUc
        · right
          exact ⟨none, 0, m, by simp only [h1, h2, if_true, if_false], h0, trivial, by simp, by simp [h1, h2, absV]⟩
        · by_cases h3 : (CLib.strtoul10 t).2 = t ∨ (CLib.strtoul10 t).2 ≠ []
          · left; exact ⟨.inval, by simp only [h1, h2, h3, if_true, if_false], .inr (by simp only [List.mem_cons, List.not_mem_nil, or_false, h1, h2, h3, if_true, if_false])⟩
          · right; exact ⟨none, _, m, by simp only [h1, h2, if_false]; rw [if_neg h3], h0, trivial, by simp, by simp only [List.mem_cons, List.not_mem_nil, or_false, h1, h2, if_false, absV]; rw [if_neg h3]⟩
  | int =>
    cases strval with
    | none => right; exact ⟨none, _, m, rfl, h0, trivial, by simp, by simp [taken, absV]⟩
    | some t =>
      simp only [taken, number_eq]
      by_cases h3 : (CLib.strtoul10 t).2 = t ∨ (CLib.strtoul10 t).2 ≠ []
      · left; exact ⟨.inval, by simp only [h3, if_true], .inr (by simp only [h3, if_true])⟩
      · by_cases h4 : toInt (CLib.strtoul10 t).1 < e.min ∨ e.max < toInt (CLib.strtoul10 t).1
        · left; exact ⟨.range, by simp only [h3, h4, if_true, if_false], .inr (by simp only [h3, if_false]; rw [if_neg (by omega)])⟩
        · right; exact ⟨none, _, m, by rw [if_neg h3, if_neg h4], h0, trivial, by simp, by rw [if_neg h3]; simp only [absV]; rw [if_pos (by omega)]⟩
  | str =>
    cases strval with
    | none => right; exact ⟨none, _, m, rfl, h0, trivial, by simp, by simp [taken, absV]⟩
    | some t =>
      simp only
      cases ha : m.alloc fail 0 with
      | none => left; exact ⟨.nomem, rfl, .inl rfl⟩
      | some p =>
        right
        exact ⟨some ⟨some p.1, dup t⟩, intval, p.2, rfl, (alloc_heap h ha).eqX (fun i => by simp [strCnt]), trivial, by simp, by simp [taken, absV, cstr_dup]⟩
  | data =>
    simp only
    by_cases hn : intval < 0
    · left; exact ⟨.inval, by simp [hn], .inr (by simp [taken, hn])⟩
    · rcases fair ht with hf | hf
      · exact absurd hf hn
      · have hf1 := hf.1
        have hf2 := hf.2
        rw [if_neg hn, if_neg (by omega)]
        cases ha : m.alloc fail 0 with
        | none => left; exact ⟨.nomem, rfl, .inl rfl⟩
        | some p =>
          right
          refine ⟨some ⟨some p.1, (strval.getD []).take intval.toNat ++ [0]⟩, intval, p.2, rfl, (alloc_heap h ha).eqX (fun i => by simp [strCnt]), trivial, by simp, ?_⟩
          simp [taken, hn, absV, List.take_append, List.take_take, hf2]

/-- `storeVal` -/
theorem storeVal_spec {m : Mem} {X : Nat → Nat} {ty : Ty} {v : Val} {ns : Option Str} {iv : Int}
    (h : Heap m (fun i => X i + strCnt i v.str + strCnt i ns)) (hd : dyn v.str) (hn : dyn ns)
    (hp : ty ≠ .str → ty ≠ .data → ns = none) :
    ∃ v' m', storeVal m ty v ns iv = some (v', m') ∧ Heap m' (fun i => X i + strCnt i v'.str) ∧ dyn v'.str ∧
      absV ty v' = absV ty ⟨ns, iv⟩ ∧ (ty ≠ .str → ty ≠ .data → v'.str = v.str) := by
  unfold storeVal
  by_cases ht : ty = .str ∨ ty = .data
  · rw [if_pos ht]
    obtain ⟨m', e, h'⟩ := freeStr_heap (m := m) (p := v.str) (X := fun i => X i + strCnt i ns) (h.eqX (fun i => by omega)) hd
    exact ⟨⟨ns, iv⟩, m', by simp [e], h', hn, rfl, fun a b => by rcases ht with c | c <;> contradiction⟩
  · rw [if_neg ht]
    have hns := hp (fun x => ht (.inl x)) (fun x => ht (.inr x))
    refine ⟨_, m, rfl, h.eqX (fun i => by simp [hns, strCnt]), hd, ?_, fun _ _ => rfl⟩
    subst hns
    cases ty <;> simp [absV] at ht ⊢

/-- What one call must do: the invariant again, the right map and answer, or no memory and nothing changed. -/
structure Same (s s' : S) : Prop where
  up : s'.up = s.up
  rv : s'.rv = s.rv
  lock : s'.lock = s.lock

theorem mem_call_same {s : S} {m : Mem} : absR { s with mem := m } = absR s := rfl

theorem lset_spec {s : S} {leak} (h : Inv s leak) (hlock : s.lock = true) (cls : Option String) (name : String)
    (strval : Option (List UInt8)) (intval : Int) (fail : Option Nat)
    (fair : ∀ d e, s.lookup name = some (d, e) → e.ty = .data → intval < 0 ∨ Given strval intval) :
    ∃ s' r, s.lset cls name strval intval fail = some (s', r) ∧ Inv s' leak ∧ Same s s' ∧
      ((r = .nomem ∧ absR s' = absR s) ∨ ((absR s', .err r) = (absR s).call (.set cls name strval intval))) := by
  unfold S.lset
  cases hl : s.lookup name with
  | none => exact ⟨s, .notfound, rfl, h, ⟨rfl, rfl, rfl⟩, .inr (by simp [M.call, absR, hl])⟩
  | some x =>
    obtain ⟨d, e⟩ := x
    have ok := h.ok hl
    have hname := lookup_name hl
    obtain ⟨R, hh, hR⟩ := h.split hl
    have habs : absR s name = some (absE (!d) e) := by simp [absR, hl]
    simp only
    rcases conv_spec hh e strval intval fail (fair d e hl) with ⟨r, hc, ho⟩ | ⟨ns, iv, m, hc, hm, hdn, hpl, htk⟩
    · rw [hc]
      refine ⟨s, r, rfl, h, ⟨rfl, rfl, rfl⟩, ?_⟩
      rcases ho with rfl | ho
      · exact .inl ⟨rfl, rfl⟩
      · right; simp [M.call, habs, absE, ho]
    · rw [hc]
      simp only
      cases cls with
      | none =>
        obtain ⟨v, m', hs, hm', hdv, hv, hvp⟩ := storeVal_spec (m := m) (ty := e.ty) (v := e.val) (ns := ns) (iv := iv)
          (X := fun i => R i + ownCnt i e.own + strCnt i e.dflt.str + clsCnt i e.classes)
          (hm.eqX (fun i => by simp only [Ent.cnt]; omega)) ok.vdyn hdn hpl
        refine ⟨_, .ok, by simp only [hs, Option.map_some], h.put hlock hl (e' := { e with val := v, set := true }) hR (hm'.eqX (fun i => by simp only [Ent.cnt]; omega))
          ⟨hdv, ok.cdyn, ok.plain, ok.cnd, fun a b => (hvp a b).trans (ok.vplain a b)⟩ rfl rfl rfl rfl, ?_, .inr ?_⟩
        · cases d <;> exact ⟨rfl, rfl, rfl⟩
        · rw [absR_put hl (by exact hname)]
          simp [M.call, habs, htk, absE, Info.with, hv]
      | some c =>
        simp only
        cases hf : e.classes.find? (·.name = c) with
        | some x =>
          have hxm := List.mem_of_find?_eq_some hf
          obtain ⟨v, m', hs, hm', hdv, hv, hvp⟩ := storeVal_spec (m := m) (ty := e.ty) (v := x.val) (ns := ns) (iv := iv)
            (X := fun i => R i + ownCnt i e.own + strCnt i e.dflt.str + strCnt i e.val.str + (clsCnt i e.classes - strCnt i x.val.str))
            (hm.eqX (fun i => by have := cnt_clsFind _ hf i; simp only [Ent.cnt]; omega)) (ok.cdyn x hxm) hdn hpl
          refine ⟨_, .ok, by simp only [hs, Option.map_some], h.put hlock hl (e' := { e with classes := putCls c v e.classes }) hR (hm'.eqX (fun i => ?_))
            ⟨ok.vdyn, mem_putCls _ ok.cdyn hdv, fun a b => mem_putCls (P := (· = none)) _ (ok.plain a b) (by rw [hvp a b]; exact ok.plain a b x hxm), ?_, ok.vplain⟩ rfl rfl rfl rfl, ?_, .inr ?_⟩
          · have h1 := cnt_clsFind _ hf i
            have h2 := cnt_putCls (v := v) _ hf i
            simp only [Ent.cnt]; omega
          · simp only [names_putCls]; exact ok.cnd
          · cases d <;> exact ⟨rfl, rfl, rfl⟩
          · rw [absR_put hl (by exact hname)]
            simp only [M.call, habs, absE, htk, Info.with, find_putCls, hf, Option.isSome_some, and_true]
            congr 4
            funext n
            by_cases hn : n = c <;> simp [hn, hv]
        | none =>
          simp only
          cases ha : m.alloc fail (if ns.isSome then 1 else 0) with
          | none =>
            obtain ⟨m', q, hm'⟩ := freeStr_heap hm hdn
            refine ⟨_, .nomem, by simp only [q, Option.map_some], h.mem (hm'.eqX hR), ⟨rfl, rfl, rfl⟩, .inl ⟨rfl, rfl⟩⟩
          | some p =>
            obtain ⟨i0, m1⟩ := p
            have hm1 := alloc_heap hm ha
            simp only
            cases hb : m1.alloc fail ((if ns.isSome then 1 else 0) + 1) with
            | none =>
              obtain ⟨m2, q2, hm2⟩ := free_heap hm1
              obtain ⟨m3, q3, hm3⟩ := freeStr_heap hm2 hdn
              refine ⟨_, .nomem, by simp only [q2, q3, Option.bind_some, Option.map_some], h.mem (hm3.eqX hR), ⟨rfl, rfl, rfl⟩, .inl ⟨rfl, rfl⟩⟩
            | some p =>
              obtain ⟨j0, m2⟩ := p
              have hm2 := alloc_heap hm1 hb
              simp only at hm2 ⊢
              obtain ⟨v, m', hs, hm', hdv, hv, hvp⟩ := storeVal_spec (m := m2) (ty := e.ty) (v := {}) (ns := ns) (iv := iv)
                (X := fun i => R i + e.cnt i + one i0 i + one j0 i)
                (hm2.eqX (fun i => by simp only [strCnt]; omega)) trivial hdn hpl
              refine ⟨_, .ok, by simp only [hs, Option.map_some], h.put hlock hl (e' := { e with classes := ⟨i0, j0, c, v⟩ :: e.classes }) hR (hm'.eqX (fun i => by simp only [Ent.cnt, clsCnt]; omega))
                ⟨ok.vdyn, ?_, ?_, ?_, ok.vplain⟩ rfl rfl rfl rfl, ?_, .inr ?_⟩
              · intro y hy
                rcases List.mem_cons.1 hy with rfl | hy
                · exact hdv
                · exact ok.cdyn y hy
              · intro a b y hy
                rcases List.mem_cons.1 hy with rfl | hy
                · exact hvp a b
                · exact ok.plain a b y hy
              · simp only [List.map_cons, List.nodup_cons]
                refine ⟨fun hmem => ?_, ok.cnd⟩
                obtain ⟨y, hy, hyn⟩ := List.mem_map.1 hmem
                have := List.find?_eq_none.1 hf y hy
                simp [hyn] at this
              · cases d <;> exact ⟨rfl, rfl, rfl⟩
              · rw [absR_put hl (by exact hname)]
                simp only [M.call, habs, absE, htk, Info.with]
                congr 4
                funext n
                by_cases hn : n = c
                · simp [hn, hv]
                · have hn' : ¬ c = n := fun x => hn x.symm
                  simp [hn, hn', List.find?_cons]


/-! ## The other calls -/

theorem add_spec {s : S} {leak} (h : Inv s leak) (hlock : s.lock = true) (name : String) (ty : Ty)
    (strval : Option (List UInt8)) (intval min max : Int) (enums : List (List UInt8 × Int)) (fail : Option Nat)
    (fair : ty = .data → strval = none ∨ 0 ≤ intval ∧ Given strval intval) :
    ∃ s' r, s.add name ty strval intval min max enums fail = some (s', r) ∧ Inv s' leak ∧ Same s s' ∧
      ((r = .nomem ∧ absR s' = absR s) ∨ ((absR s', .err r) = (absR s).call (.add name ty strval intval min max enums))) := by
  unfold S.add
  cases hl : s.lookup name with
  | some x => exact ⟨s, .exists, rfl, h, ⟨rfl, rfl, rfl⟩, .inr (by simp [M.call, absR, hl])⟩
  | none =>
    have hln : s.builtin.find? (·.name = name) = none ∧ s.added.find? (·.name = name) = none := by
      unfold S.lookup at hl
      cases hb : s.builtin.find? (·.name = name) with
      | some x => rw [hb] at hl; simp at hl
      | none => rw [hb] at hl; simpa using hl
    have fin : ∀ (e : Ent) (m : Mem) , e.name = name → e.own.isSome → Ok e → e.set = false → e.classes = [] →
        Heap m (fun i => entCnt i s.builtin + entCnt i s.added + s.user.count i + leak i + e.cnt i) →
        Inv { s with mem := m, added := e :: s.added } leak ∧
        absR { s with mem := m, added := e :: s.added } = (absR s).at name (some (absE true e)) := by
      intro e m hn ho hok hs hc hm
      refine ⟨⟨hm.eqX (fun i => by simp only [entCnt]; omega), h.okB, ?_, ?_, ?_, h.reuse, h.rv, h.lockUp, h.upLock, h.cleanB, ?_, h.stat⟩, ?_⟩
      · intro x hx
        rcases List.mem_cons.1 hx with rfl | hx
        · exact hok
        · exact h.okA x hx
      · simp only [List.map_cons, List.nodup_cons]
        refine ⟨fun hmem => ?_, h.ndA⟩
        obtain ⟨y, hy, hyn⟩ := List.mem_map.1 hmem
        have := List.find?_eq_none.1 hln.2 y hy
        simp [hyn, hn] at this
      · intro x hx
        rcases List.mem_cons.1 hx with rfl | hx
        · exact ho
        · exact h.owned x hx
      · simp [hlock]
      · funext n
        simp only [absR, S.lookup, M.at]
        by_cases hnn : n = name
        · subst hnn; simp [hln.1, hn]
        · have hn' : ¬ e.name = n := fun x => hnn (x.symm.trans hn)
          simp [hnn, hn', List.find?_cons]
    simp only
    cases ha : s.mem.alloc fail 0 with
    | none => exact ⟨s, .nomem, rfl, h, ⟨rfl, rfl, rfl⟩, .inl ⟨rfl, rfl⟩⟩
    | some p =>
      obtain ⟨d, m1⟩ := p
      have h1 := alloc_heap h.heap ha
      simp only at h1 ⊢
      cases hb : m1.alloc fail 1 with
      | none =>
        obtain ⟨m2, q2, h2⟩ := free_heap h1
        exact ⟨_, .nomem, by simp only [q2, Option.map_some], h.mem h2, ⟨rfl, rfl, rfl⟩, .inl ⟨rfl, rfl⟩⟩
      | some p =>
        obtain ⟨n, m2⟩ := p
        have h2 := alloc_heap h1 hb
        simp only at h2 ⊢
        cases strval with
        | none =>
          obtain ⟨i1, a1⟩ := fin { own := some (d, n), name, ty, min, max, enums, dflt := { int := intval } } m2 rfl rfl
            ⟨trivial, by simp, by simp, by simp, fun _ _ => rfl⟩ rfl rfl (h2.eqX (fun i => by simp only [Ent.cnt, ownCnt, strCnt, clsCnt]; omega))
          refine ⟨_, .ok, rfl, i1, ⟨rfl, rfl, rfl⟩, .inr ?_⟩
          rw [a1]
          simp only [M.call, absR, hl, Option.map_none, absE]
          cases ty <;> simp [made, absV]
        | some t =>
          simp only
          have hg : ¬ (ty = .data ∧ (intval < 0 ∨ 2147483647 ≤ intval ∨ t.length < intval.toNat)) := by
            rintro ⟨ht, hx⟩
            rcases fair ht with hf | ⟨hf0, hf⟩
            · cases hf
            · have := hf.1
              have h2 := hf.2
              simp only [Option.getD_some] at h2
              omega
          rw [if_neg hg]
          cases hc : m2.alloc fail 2 with
          | none =>
            obtain ⟨m3, q3, h3⟩ := free_heap h2
            obtain ⟨m4, q4, h4⟩ := free_heap h3
            exact ⟨_, .nomem, by simp only [q3, q4, Option.bind_some, Option.map_some], h.mem h4, ⟨rfl, rfl, rfl⟩, .inl ⟨rfl, rfl⟩⟩
          | some p =>
            obtain ⟨j, m3⟩ := p
            have h3 := alloc_heap h2 hc
            simp only at h3 ⊢
            obtain ⟨i1, a1⟩ := fin { own := some (d, n), name, ty, min, max, enums, dflt := ⟨some ⟨some j, if ty = .data then t.take intval.toNat ++ [0] else dup t⟩, intval⟩ } m3 rfl rfl
              ⟨trivial, by simp, by simp, by simp, fun _ _ => rfl⟩ rfl rfl (h3.eqX (fun i => by simp only [Ent.cnt, ownCnt, strCnt, clsCnt]; omega))
            refine ⟨_, .ok, rfl, i1, ⟨rfl, rfl, rfl⟩, .inr ?_⟩
            rw [a1]
            simp only [M.call, absR, hl, Option.map_none, absE]
            cases ty
            · simp [made, absV]
            · simp [made, absV]
            · simp [made, absV]
            · simp [made, absV, cstr_dup]
            · have : intval.toNat ≤ t.length := by
                have hg' : ¬ (intval < 0 ∨ 2147483647 ≤ intval ∨ t.length < intval.toNat) := fun x => hg ⟨rfl, x⟩
                omega
              simp [made, absV, List.take_append, List.take_take, this]

theorem give_spec {s : S} {leak} (h : Inv s leak) (fail : Option Nat) (a : Ans) :
    Inv (s.give fail a).1 leak ∧ Same s (s.give fail a).1 ∧ absR (s.give fail a).1 = absR s ∧
      ((s.give fail a).2 = .err .nomem ∨ (s.give fail a).2 = a) := by
  unfold S.give
  cases ha : s.mem.alloc fail 0 with
  | none => exact ⟨h, ⟨rfl, rfl, rfl⟩, rfl, .inl rfl⟩
  | some p =>
    obtain ⟨i, m⟩ := p
    have h1 := alloc_heap h.heap ha
    refine ⟨⟨h1.eqX (fun j => ?_), h.okB, h.okA, h.ndA, h.owned, h.reuse, h.rv, h.lockUp, h.upLock, h.cleanB, h.cleanA, h.stat⟩, ⟨rfl, rfl, rfl⟩, rfl, .inr rfl⟩
    simp only [List.count_cons, one, beq_iff_eq]
    omega

theorem giveVal_spec {s : S} {leak} (h : Inv s leak) (ty ety : Ty) (v : Val) (fail : Option Nat) (fair : ty ≠ .data)
    (hask : askable ety ty = true) (hc : ∀ i, strCnt i v.str ≤ entCnt i s.builtin + entCnt i s.added) :
    ∃ s' a, s.giveVal ty v fail = some (s', a) ∧ Inv s' leak ∧ Same s s' ∧ absR s' = absR s ∧
      (a = .err .nomem ∨ a = (absV ety v).ans) := by
  cases ty with
  | data => exact absurd rfl fair
  | str =>
    have het : ety = .str := by cases ety <;> simp [askable] at hask ⊢
    subst het
    unfold S.giveVal
    simp only
    cases hs : v.str with
    | none => exact ⟨s, _, rfl, h, ⟨rfl, rfl, rfl⟩, rfl, .inr (by simp [absV, hs, V.ans])⟩
    | some p =>
      have hr : s.mem.readable p = true := readable_of h.heap (fun i => by
        have h1 := hc i; rw [hs] at h1; omega)
      obtain ⟨g1, g2, g3, g4⟩ := give_spec h fail (.str (some (p.data.takeWhile (· ≠ 0))))
      refine ⟨(s.give fail (.str (some (p.data.takeWhile (· ≠ 0))))).1, (s.give fail (.str (some (p.data.takeWhile (· ≠ 0))))).2, by simp [hr], g1, g2, g3, ?_⟩
      rcases g4 with g4 | g4
      · exact .inl g4
      · right; rw [g4]; simp [absV, hs, V.ans, cstr]
  | int => exact ⟨s, _, rfl, h, ⟨rfl, rfl, rfl⟩, rfl, .inr (by cases ety <;> simp [askable, absV, V.ans] at hask ⊢)⟩
  | bool => exact ⟨s, _, rfl, h, ⟨rfl, rfl, rfl⟩, rfl, .inr (by cases ety <;> simp [askable, absV, V.ans] at hask ⊢)⟩
  | enum => exact ⟨s, _, rfl, h, ⟨rfl, rfl, rfl⟩, rfl, .inr (by cases ety <;> simp [askable, absV, V.ans] at hask ⊢)⟩

theorem get_spec {s : S} {leak} (h : Inv s leak) (cls : Option String) (name : String) (classonly : Bool) (ty : Ty)
    (fail : Option Nat) (fair : ty ≠ .data) :
    ∃ s' a, s.get cls name classonly ty fail = some (s', a) ∧ Inv s' leak ∧ Same s s' ∧ absR s' = absR s ∧
      (a = .err .nomem ∨ ((absR s', a) = (absR s).call (.get cls name classonly ty))) := by
  unfold S.get
  cases hl : s.lookup name with
  | none => exact ⟨s, _, rfl, h, ⟨rfl, rfl, rfl⟩, rfl, .inr (by simp [M.call, absR, hl])⟩
  | some x =>
    obtain ⟨d, e⟩ := x
    have habs : absR s name = some (absE (!d) e) := by simp [absR, hl]
    have hle := h.le hl
    have hty' : (absE (!d) e).ty = e.ty := rfl
    simp only
    by_cases hty : e.ty ≠ ty ∧ ¬ (e.ty = .enum ∧ ty = .int) ∧ ¬ (e.ty = .bool ∧ ty = .int)
    · rw [if_pos hty]
      refine ⟨s, _, rfl, h, ⟨rfl, rfl, rfl⟩, rfl, .inr ?_⟩
      have : askable e.ty ty = false := by
        revert hty; generalize e.ty = a; cases a <;> cases ty <;> simp [askable]
      simp [M.call, habs, hty', this]
    · rw [if_neg hty]
      have hask : askable e.ty ty = true := by
        revert hty; generalize e.ty = a; cases a <;> cases ty <;> simp [askable]
      have hcls : cls.bind (absE (!d) e).cls = (classOf e cls).map fun c => absV e.ty c.val := by
        cases cls with
        | none => rfl
        | some n => simp [absE, classOf, Option.map_map]; rfl
      have fin : ∀ v : Val, (absE (!d) e).value cls classonly = some (absV e.ty v) →
          (∀ i, strCnt i v.str ≤ e.cnt i) →
          ∃ s' a, s.giveVal ty v fail = some (s', a) ∧ Inv s' leak ∧ Same s s' ∧ absR s' = absR s ∧
            (a = .err .nomem ∨ ((absR s', a) = (absR s).call (.get cls name classonly ty))) := by
        intro v hv hc
        obtain ⟨s', a, g1, g2, g3, g4, g5⟩ := giveVal_spec h ty e.ty v fail fair hask
          (fun i => Nat.le_trans (hc i) (hle i))
        refine ⟨s', a, g1, g2, g3, g4, ?_⟩
        rcases g5 with g5 | g5
        · exact .inl g5
        · right; rw [g4, g5]; simp [M.call, habs, hty', hask, hv]
      cases hcl : classOf e cls with
      | some c =>
        refine fin c.val (by simp [Info.value, hcls, hcl]) (fun i => ?_)
        cases cls with
        | none => cases hcl
        | some n => have := cnt_clsFind _ hcl i; simp only [Ent.cnt]; omega
      | none =>
        cases classonly with
        | true =>
          refine ⟨s, _, rfl, h, ⟨rfl, rfl, rfl⟩, rfl, .inr ?_⟩
          simp [M.call, habs, hty', hask, Info.value, hcls, hcl]
        | false =>
          cases hes : e.set with
          | true =>
            refine fin e.val ?_ (fun i => by simp only [Ent.cnt]; omega)
            simp only [Info.value, hcls, hcl]; simp [absE, hes]
          | false =>
            refine fin e.dflt ?_ (fun i => by simp only [Ent.cnt]; omega)
            simp only [Info.value, hcls, hcl]; simp [absE, hes]

theorem absE_cls_some {u : Bool} {e : Ent} : (∃ c, ((absE u e).cls c).isSome) ↔ e.classes ≠ [] := by
  constructor
  · rintro ⟨c, hc⟩ hn
    simp [absE, hn] at hc
  · intro hn
    cases hcl : e.classes with
    | nil => exact absurd hcl hn
    | cons x l => exact ⟨x.name, by simp [absE, hcl]⟩

theorem del_spec {s : S} {leak} (h : Inv s leak) (hlock : s.lock = true) (cls : Option String) (name : String) (delclasses : Bool) :
    ∃ s' r leak', s.del cls name delclasses = some (s', r) ∧ Inv s' leak' ∧ Same s s' ∧ (∀ i, leak i ≤ leak' i) ∧
      ((cls = none → ∀ e ∈ s.added, e.name = name → e.dflt.str = none) → leak' = leak) ∧
      ((absR s', .err r) = (absR s).call (.del cls name delclasses)) := by
  unfold S.del
  cases hl : s.lookup name with
  | none =>
    refine ⟨s, _, leak, rfl, h, ⟨rfl, rfl, rfl⟩, fun _ => Nat.le_refl _, fun _ => rfl, ?_⟩
    cases cls <;> simp [M.call, absR, hl]
  | some x =>
    obtain ⟨d, e⟩ := x
    have ok := h.ok hl
    have hname := lookup_name hl
    obtain ⟨R, hh, hR⟩ := h.split hl
    have habs : absR s name = some (absE (!d) e) := by simp [absR, hl]
    simp only
    cases cls with
    | some c =>
      simp only
      cases hf : e.classes.find? (·.name = c) with
      | none =>
        refine ⟨s, _, leak, rfl, h, ⟨rfl, rfl, rfl⟩, fun _ => Nat.le_refl _, fun _ => rfl, ?_⟩
        simp [M.call, habs, absE, hf]
      | some x =>
        have hxm := List.mem_of_find?_eq_some hf
        obtain ⟨m1, q1, h1⟩ := freeStr_heap (m := s.mem) (p := x.val.str)
          (X := fun i => R i + ({ e with classes := e.classes.eraseP (·.name = c) } : Ent).cnt i + one x.blk i + one x.nblk i)
          (hh.eqX (fun i => by have := cnt_clsErase _ hf i; simp only [Ent.cnt]; omega)) (ok.cdyn x hxm)
        obtain ⟨m2, q2, h2⟩ := free_heap h1
        obtain ⟨m3, q3, h3⟩ := free_heap h2
        refine ⟨_, .ok, leak, by simp only [q1, q2, q3, Option.bind_some, Option.map_some], h.put hlock hl hR h3 ⟨ok.vdyn, ?_, ?_, ?_, ok.vplain⟩ rfl rfl rfl rfl, ?_,
          fun _ => Nat.le_refl _, fun _ => rfl, ?_⟩
        · exact fun y hy => ok.cdyn y (List.mem_of_mem_eraseP hy)
        · exact fun a b y hy => ok.plain a b y (List.mem_of_mem_eraseP hy)
        · exact ok.cnd.sublist ((List.eraseP_sublist (l := e.classes)).map _)
        · cases d <;> exact ⟨rfl, rfl, rfl⟩
        · rw [absR_put hl (by exact hname)]
          simp only [M.call, habs, absE, hf, Option.map_some, find_clsErase _ ok.cnd]
          congr 4
          funext n
          by_cases hn : n = c <;> simp [hn]
    | none =>
      simp only
      cases d with
      | true =>
        refine ⟨s, _, leak, rfl, h, ⟨rfl, rfl, rfl⟩, fun _ => Nat.le_refl _, fun _ => rfl, ?_⟩
        simp [M.call, habs, absE]
      | false =>
        obtain ⟨h0, _⟩ | ⟨_, hb, ha⟩ := lookup_some hl
        · cases h0
        simp only [Bool.false_eq_true, if_false]
        by_cases hc : e.classes ≠ [] ∧ delclasses = false
        · rw [if_pos hc]
          refine ⟨s, _, leak, rfl, h, ⟨rfl, rfl, rfl⟩, fun _ => Nat.le_refl _, fun _ => rfl, ?_⟩
          simp only [M.call, habs]
          rw [if_neg (by simp [absE]), if_pos ⟨hc.2, absE_cls_some.2 hc.1⟩]
        · rw [if_neg hc]
          have hem := List.mem_of_find?_eq_some ha
          obtain ⟨m1, q1, h1⟩ := delClasses_heap e.classes (m := s.mem)
            (X := fun i => R i + ownCnt i e.own + strCnt i e.dflt.str + strCnt i e.val.str)
            (hh.eqX (fun i => by simp only [Ent.cnt]; omega)) ok.cdyn
          obtain ⟨m2, q2, h2⟩ := freeStr_heap h1 ok.vdyn
          have hown := h.owned e hem
          cases ho : e.own with
          | none => rw [ho] at hown; cases hown
          | some dn =>
            obtain ⟨dd, nn⟩ := dn
            obtain ⟨m3, q3, h3⟩ := free_heap (m := m2) (j := nn) (X := fun i => R i + strCnt i e.dflt.str + one dd i)
              (h2.eqX (fun i => by simp only [ho, ownCnt]; omega))
            obtain ⟨m4, q4, h4⟩ := free_heap h3
            refine ⟨{ s with mem := m4, added := s.added.eraseP (·.name = name) }, .ok, fun i => leak i + strCnt i e.dflt.str, by simp only [q1, q2, q3, q4, Option.bind_some, Option.map_some], ?_, ⟨rfl, rfl, rfl⟩, fun i => by dsimp only; omega, ?_, ?_⟩
            · refine ⟨h4.eqX (fun i => ?_), h.okB, fun y hy => h.okA y (List.mem_of_mem_eraseP hy), h.ndA.sublist ((List.eraseP_sublist (l := s.added)).map _),
                fun y hy => h.owned y (List.mem_of_mem_eraseP hy), h.reuse, h.rv, h.lockUp, h.upLock, h.cleanB,
                fun hk y hy => h.cleanA hk y (List.mem_of_mem_eraseP hy), h.stat⟩
              have := cnt_eraseP _ ha i; have := hR i; dsimp only; omega
            · intro hno
              funext i
              rw [hno (by simp) e hem hname]; simp [strCnt]
            · simp only [M.call, habs]
              rw [if_neg (by simp [absE]), if_neg (by rw [absE_cls_some]; exact fun hx => hc ⟨hx.2, hx.1⟩)]
              congr 1
              funext n
              simp only [absR, S.lookup, M.at, find_eraseP _ h.ndA]
              by_cases hn : n = name <;> simp [hn, hb]

theorem ClearedL.absR {s s' : S} (hB : ClearedL s.builtin s'.builtin) (hA : ClearedL s.added s'.added) :
    absR s' = (absR s).clear := by
  have key : ∀ (u : Bool) {e e' : Ent}, Cleared e e' → absE u e' = { absE u e with glob := none, cls := fun _ => none } := by
    intro u e e' c
    simp [absE, c.ty, c.min, c.max, c.enums, c.dflt, c.set, c.classes]
  funext n
  simp only [Defaults.absR, M.clear, S.lookup]
  rcases hB.find n with ⟨h1, h2⟩ | ⟨e, e', h1, h2, c⟩
  · rw [h1, h2]
    rcases hA.find n with ⟨h3, h4⟩ | ⟨e, e', h3, h4, c⟩
    · simp [h3, h4]
    · simp [h3, h4, key _ c]
  · simp [h1, h2, key _ c]

/-- No data has values for classes. -/
def NoData (s : S) : Prop := ∀ e, e ∈ s.builtin ∨ e ∈ s.added → e.ty = .data → e.classes = []

theorem entLeak_zero {l : List Ent} (ok : ∀ e ∈ l, Ok e) (nd : ∀ e ∈ l, e.ty = .data → e.classes = []) (i : Nat) : entLeak i l = 0 := by
  induction l with
  | nil => rfl
  | cons e l ih =>
    have he : e.leak i = 0 := by
      unfold Ent.leak
      by_cases h1 : e.ty = .str
      · simp [h1]
      · by_cases h2 : e.ty = .data
        · simp [h1, nd e (by simp) h2, clsStr]
        · simp [h1, clsStr_none ((ok e (by simp)).plain h1 h2)]
    simp [entLeak, he, ih (fun x hx => ok x (by simp [hx])) (fun x hx => nd x (by simp [hx]))]

theorem clear_of_clean {s : S} {leak} (h : Inv s leak) (hl : s.lock = false) : (absR s).clear = absR s := by
  funext n
  simp only [absR, M.clear, S.lookup]
  have key : ∀ (u : Bool) (e : Ent), e.set = false ∧ e.classes = [] → ({ absE u e with glob := none, cls := fun _ => none } : Info) = absE u e := by
    intro u e c; simp [absE, c.1, c.2]
  cases hb : s.builtin.find? (·.name = n) with
  | some e => have hc := h.cleanB hl e (List.mem_of_find?_eq_some hb); simp [key _ _ ⟨hc.1, hc.2.1⟩]
  | none =>
    cases ha : s.added.find? (·.name = n) with
    | some e => simp [key _ _ (h.cleanA hl e (List.mem_of_find?_eq_some ha))]
    | none => simp

theorem entCnt_zero {i : Nat} {l : List Ent} (h : ∀ e ∈ l, e.cnt i = 0) : entCnt i l = 0 := by
  induction l with
  | nil => rfl
  | cons e l ih => simp [entCnt, h e (by simp), ih (fun x hx => h x (by simp [hx]))]

theorem reset_spec {s : S} {leak} (h : Inv s leak) :
    ∃ s' leak', s.reset = some s' ∧ Inv s' leak' ∧ Same s s' ∧ (∀ i, leak i ≤ leak' i) ∧ (NoData s → leak' = leak) ∧
      absR s' = (absR s).clear ∧ (∀ e ∈ s'.builtin, e.set = false ∧ e.classes = [] ∧ e.val.str = none) ∧
      (∀ e ∈ s'.added, e.set = false ∧ e.classes = []) ∧ (∀ i, entCnt i s'.builtin = 0) := by
  unfold S.reset
  cases hl : s.lock with
  | false => exact ⟨s, leak, rfl, h, ⟨rfl, rfl, rfl⟩, fun _ => Nat.le_refl _, fun _ => rfl, (clear_of_clean h hl).symm, h.cleanB hl, h.cleanA hl,
      fun i => entCnt_zero (fun e he => by
        have hs := h.stat e he
        have hc := h.cleanB hl e he
        rw [Ent.cnt, hs.1, hs.2.1 i, hc.2.2, hc.2.1]
        rfl)⟩
  | true =>
    simp only [Bool.not_true, Bool.false_eq_true, if_false]
    obtain ⟨b, m1, q1, h1, c1⟩ := resetList_heap s.builtin (m := s.mem) (X := fun i => entCnt i s.added + s.user.count i + leak i)
      (h.heap.eqX (fun i => by omega)) h.okB
    obtain ⟨a, m2, q2, h2, c2⟩ := resetList_heap s.added (m := m1) (X := fun i => entCnt i b + s.user.count i + leak i + entLeak i s.builtin)
      (h1.eqX (fun i => by omega)) h.okA
    have cl : ∀ {l l' : List Ent}, ClearedL l l' → ∀ e ∈ l', e.set = false ∧ e.classes = [] := by
      intro l l' c e he
      obtain ⟨x, _, cx⟩ := c.all e he
      exact ⟨cx.set, cx.classes⟩
    have cb : ∀ e ∈ b, e.set = false ∧ e.classes = [] ∧ e.val.str = none := by
      intro e he
      obtain ⟨x, hx, cx⟩ := c1.all e he
      refine ⟨cx.set, cx.classes, ?_⟩
      by_cases ht : x.ty = .str
      · exact cx.vstr ht
      · exact cx.ok.vplain (by rw [cx.ty]; exact ht) (by rw [cx.ty]; exact (h.stat x hx).2.2)
    refine ⟨{ s with builtin := b, added := a, mem := m2 }, fun i => leak i + entLeak i s.builtin + entLeak i s.added, by simp [q1, q2, hl], ?_, ⟨rfl, rfl, rfl⟩, fun i => by dsimp only; omega, ?_,
      ClearedL.absR c1 c2, cb, cl c2, fun i => ?_⟩
    · refine ⟨h2.eqX (fun i => by dsimp only; omega), ?_, ?_, ?_, ?_, ?_, h.rv, h.lockUp, h.upLock, fun _ => cb, fun _ => cl c2, ?_⟩
      · intro e he; obtain ⟨x, _, cx⟩ := c1.all e he; exact cx.ok
      · intro e he; obtain ⟨x, _, cx⟩ := c2.all e he; exact cx.ok
      · dsimp only; rw [c2.names]; exact h.ndA
      · intro e he; obtain ⟨x, hx, cx⟩ := c2.all e he; rw [cx.own]; exact h.owned x hx
      · obtain ⟨e, he, ht⟩ := h.reuse
        rcases c1.find "reuseaddr" with ⟨h3, _⟩ | ⟨x, x', h3, h4, c⟩
        · rw [h3] at he; cases he
        · rw [h3] at he; cases he
          exact ⟨x', h4, c.ty.trans ht⟩
      · intro e he; obtain ⟨x, hx, cx⟩ := c1.all e he; rw [cx.own, cx.dflt, cx.ty]; exact h.stat x hx
    · intro nd
      funext i
      rw [entLeak_zero h.okB (fun e he => nd e (.inl he)), entLeak_zero h.okA (fun e he => nd e (.inr he))]
      omega
    · exact entCnt_zero (fun e he => by
        obtain ⟨x, hx, cx⟩ := c1.all e he
        have hs := h.stat x hx
        have hv := (cb e he).2.2
        rw [Ent.cnt, cx.own, hs.1, cx.dflt, hs.2.1 i, hv, cx.classes]
        rfl)

end Gensio.Defaults
