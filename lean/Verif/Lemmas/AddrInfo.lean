import Verif.Model.AddrInfo

namespace Gensio.AddrInfo

/-! ## Comparison -/

theorem mask32_iff (m : Nat) (a b : BitVec 32) (h1 : 0 < m) (h2 : m ≤ 32) :
    (mask32 m a = mask32 m b) ↔ ∀ k, k < m → a.getMsbD k = b.getMsbD k := by
  unfold mask32
  split
  · rename_i h
    constructor
    · intro e k hk
      have := congrArg (fun v => BitVec.getLsbD v (31 - k)) e
      simp only [BitVec.getLsbD_and, BitVec.getLsbD_shiftLeft, BitVec.getLsbD_not,
        BitVec.getLsbD_zero] at this
      simp only [BitVec.getMsbD]
      have h3 : 31 - k < 32 := by omega
      have h4 : ¬ (31 - k < 32 - m) := by omega
      have h5 : 31 - k - (32 - m) < 32 := by omega
      have h6 : k < 32 := by omega
      have h7 : 32 - 1 - k = 31 - k := by omega
      simpa [h3, h4, h5, h6, h7] using this
    · intro e
      apply BitVec.eq_of_getLsbD_eq
      intro i hi
      simp only [BitVec.getLsbD_and, BitVec.getLsbD_shiftLeft, BitVec.getLsbD_not,
        BitVec.getLsbD_zero]
      by_cases h4 : i < 32 - m
      · simp [h4]
      · have := e (31 - i) (by omega)
        simp only [BitVec.getMsbD] at this
        have h7 : 32 - 1 - (31 - i) = i := by omega
        have h6 : 31 - i < 32 := by omega
        simp only [h7, h6, decide_true, Bool.true_and] at this
        rw [this]
  · rename_i h
    have : m = 32 := by omega
    subst this
    constructor
    · intro e k _; rw [e]
    · intro e
      apply BitVec.eq_of_getMsbD_eq
      intro i hi
      exact e i hi

theorem mask32_ge (m : Nat) (a : BitVec 32) (h : m = 0 ∨ 32 ≤ m) : mask32 m a = a := by
  unfold mask32
  rw [if_neg (by omega)]

theorem byte_getLsbD (a : BitVec 128) (i t : Nat) :
    (byte a i).getLsbD t = (decide (t < 8) && a.getLsbD (120 - 8 * i + t)) := by
  unfold byte
  simp [BitVec.getLsbD_extractLsb']

theorem byte_msb (a : BitVec 128) (i t : Nat) (hi : 8 * i + 8 ≤ 128) (ht : t < 8) :
    a.getMsbD (8 * i + t) = (byte a i).getLsbD (7 - t) := by
  rw [byte_getLsbD]
  simp only [BitVec.getMsbD]
  have h1 : 128 - 1 - (8 * i + t) = 120 - 8 * i + (7 - t) := by omega
  have h2 : 8 * i + t < 128 := by omega
  have h3 : 7 - t < 8 := by omega
  simp [h1, h2, h3]

theorem byte_eq_iff (a b : BitVec 128) (i : Nat) (hi : 8 * i + 8 ≤ 128) :
    byte a i = byte b i ↔ ∀ t, t < 8 → a.getMsbD (8 * i + t) = b.getMsbD (8 * i + t) := by
  constructor
  · intro e t ht
    rw [byte_msb a i t hi ht, byte_msb b i t hi ht, e]
  · intro e
    apply BitVec.eq_of_getLsbD_eq
    intro k hk
    have := e (7 - k) (by omega)
    rw [byte_msb a i _ hi (by omega), byte_msb b i _ hi (by omega)] at this
    have h : 7 - (7 - k) = k := by omega
    rwa [h] at this

theorem byte_mask_iff (a b : BitVec 128) (i m : Nat) (hi : 8 * i + 8 ≤ 128) (h0 : 0 < m) (hm : m < 8) :
    (byte a i &&& ((~~~(0 : BitVec 8)) <<< (8 - m)) = byte b i &&& ((~~~(0 : BitVec 8)) <<< (8 - m))) ↔
      ∀ t, t < m → a.getMsbD (8 * i + t) = b.getMsbD (8 * i + t) := by
  constructor
  · intro e t ht
    rw [byte_msb a i t hi (by omega), byte_msb b i t hi (by omega)]
    have := congrArg (fun v => BitVec.getLsbD v (7 - t)) e
    simp only [BitVec.getLsbD_and, BitVec.getLsbD_shiftLeft, BitVec.getLsbD_not,
      BitVec.getLsbD_zero] at this
    have h3 : 7 - t < 8 := by omega
    have h4 : ¬ (7 - t < 8 - m) := by omega
    have h5 : 7 - t - (8 - m) < 8 := by omega
    simpa [h3, h4, h5] using this
  · intro e
    apply BitVec.eq_of_getLsbD_eq
    intro k hk
    simp only [BitVec.getLsbD_and, BitVec.getLsbD_shiftLeft, BitVec.getLsbD_not,
      BitVec.getLsbD_zero]
    by_cases h4 : k < 8 - m
    · simp [h4]
    · have := e (7 - k) (by omega)
      rw [byte_msb a i _ hi (by omega), byte_msb b i _ hi (by omega)] at this
      have h : 7 - (7 - k) = k := by omega
      rw [h] at this
      rw [this]

theorem cmp128From_iff (a b : BitVec 128) (m i : Nat) (h : 8 * i + m ≤ 128) :
    cmp128From a b m i = true ↔
      ∀ k, 8 * i ≤ k → k < 8 * i + m → a.getMsbD k = b.getMsbD k := by
  induction m using Nat.strongRecOn generalizing i with
  | _ m ih =>
    rw [cmp128From]
    by_cases h8 : 8 ≤ m
    · rw [if_pos h8]
      by_cases hb : byte a i = byte b i
      · rw [if_neg (by simp [hb]), ih (m - 8) (by omega) (i + 1) (by omega)]
        have hbb := (byte_eq_iff a b i (by omega)).1 hb
        constructor
        · intro e k h1 h2
          by_cases hk : k < 8 * i + 8
          · have := hbb (k - 8 * i) (by omega)
            have h3 : 8 * i + (k - 8 * i) = k := by omega
            rwa [h3] at this
          · exact e k (by omega) (by omega)
        · intro e k h1 h2
          exact e k (by omega) (by omega)
      · rw [if_pos (by simpa using hb)]
        constructor
        · intro e; cases e
        · intro e
          exact absurd ((byte_eq_iff a b i (by omega)).2 fun t ht => e _ (by omega) (by omega)) hb
    · rw [if_neg h8]
      by_cases h0 : 0 < m
      · rw [if_pos h0]
        simp only [beq_iff_eq]
        rw [byte_mask_iff a b i m (by omega) h0 (by omega)]
        constructor
        · intro e k h1 h2
          have := e (k - 8 * i) (by omega)
          have h3 : 8 * i + (k - 8 * i) = k := by omega
          rwa [h3] at this
        · intro e t ht
          exact e _ (by omega) (by omega)
      · rw [if_neg h0]
        simp only [true_iff]
        intro k h1 h2
        omega

theorem cmp128_iff (m : Nat) (a b : BitVec 128) (h0 : 0 < m) (hm : m ≤ 128) :
    cmp128 m a b = true ↔ ∀ k, k < m → a.getMsbD k = b.getMsbD k := by
  unfold cmp128
  rw [if_neg (by omega), cmp128From_iff a b m 0 (by omega)]
  constructor
  · intro e k hk; exact e k (by omega) (by omega)
  · intro e k _ hk; exact e k (by omega)

theorem cmp128_exact (m : Nat) (a b : BitVec 128) (h : m = 0 ∨ 128 ≤ m) :
    cmp128 m a b = true ↔ a = b := by
  have h1 : cmp128 m a b = cmp128From a b 128 0 := by
    unfold cmp128
    split
    · rfl
    · have : m = 128 := by omega
      rw [this]
  rw [h1, cmp128From_iff a b 128 0 (by omega)]
  constructor
  · intro e
    apply BitVec.eq_of_getMsbD_eq
    intro i hi
    exact e i (by omega) (by omega)
  · intro e k _ _; rw [e]

theorem mapped_ext (a b : BitVec 128) (ha : v4mapped a = true) (hb : v4mapped b = true) :
    low32 a = low32 b ↔ a = b := by
  unfold v4mapped at *
  simp only [beq_iff_eq] at ha hb
  constructor
  · intro e
    apply BitVec.eq_of_getLsbD_eq
    intro i hi
    by_cases h : i < 32
    · have := congrArg (fun v => BitVec.getLsbD v i) e
      simpa [low32, BitVec.getLsbD_extractLsb', h] using this
    · have h1 := congrArg (fun v => BitVec.getLsbD v (i - 32)) (ha.trans hb.symm)
      simp only [BitVec.getLsbD_ushiftRight] at h1
      have h2 : 32 + (i - 32) = i := by omega
      rwa [h2] at h1
  · intro e; rw [e]

/-! ## What an address stands for -/

/-- Specification: what a socket address names.  An IPv6 address of the form ::ffff:a.b.c.d (RFC 4291,
2.5.5.2) names the IPv4 host a.b.c.d. -/
inductive Host where
  | ip4 (a : BitVec 32)
  | ip6 (a : BitVec 128)
  | path (p : List UInt8) (len : Nat)
deriving DecidableEq, Repr

/-- Specification: the host and the port of a socket address of a known family. -/
def named (s : Sock) : Option (Host × BitVec 16) :=
  match s.sa with
  | .v4 ip p => some (.ip4 ip, p)
  | .v6 ip p _ =>
    if ip = (0xffff#96 ++ ip.setWidth 32 : BitVec 128) then some (.ip4 (ip.setWidth 32), p)
    else some (.ip6 ip, p)
  | .unix q => some (.path q s.len, 0)
  | .other _ => none

/-- The lengths the system gives IPv4 and IPv6 addresses. -/
def Std (s : Sock) : Prop :=
  match s.sa with
  | .v4 _ _ => s.len = 16
  | .v6 _ _ _ => s.len = 28
  | _ => True

theorem v4mapped_iff (a : BitVec 128) :
    v4mapped a = true ↔ a = (0xffff#96 ++ a.setWidth 32 : BitVec 128) := by
  unfold v4mapped
  simp only [beq_iff_eq]
  constructor
  · intro e
    apply BitVec.eq_of_getLsbD_eq
    intro i hi
    rw [BitVec.getLsbD_append]
    by_cases h : i < 32
    · simp [h]
    · have h1 := congrArg (fun v => BitVec.getLsbD v (i - 32)) e
      simp only [BitVec.getLsbD_ushiftRight] at h1
      have h2 : 32 + (i - 32) = i := by omega
      rw [h2] at h1
      simp only [h, decide_false, cond_false]
      rw [h1]
      simp only [BitVec.getLsbD_ofNat]
      have h3 : i - 32 < 128 := by omega
      have h4 : i - 32 < 96 := by omega
      simp [h3, h4]
  · intro e
    rw [e]
    apply BitVec.eq_of_getLsbD_eq
    intro i hi
    rw [BitVec.getLsbD_ushiftRight, BitVec.getLsbD_append]
    have h : ¬ (32 + i < 32) := by omega
    have h2 : 32 + i - 32 = i := by omega
    simp only [h, h2, decide_false, cond_false, BitVec.getLsbD_ofNat]
    by_cases h3 : i < 96
    · simp [h3, hi]
    · simp only [h3, decide_false, Bool.false_and, hi, decide_true, Bool.true_and]
      symm
      apply Nat.testBit_lt_two_pow
      calc 65535 < 2 ^ 96 := by decide
        _ ≤ 2 ^ i := Nat.pow_le_pow_right (by decide) (by omega)

theorem low32_eq (a : BitVec 128) : low32 a = a.setWidth 32 := by
  unfold low32
  apply BitVec.eq_of_getLsbD_eq
  intro i hi
  simp [BitVec.getLsbD_extractLsb', BitVec.getLsbD_setWidth]

theorem named_v6 (ip : BitVec 128) (p : BitVec 16) (sc len : Nat) :
    named ⟨.v6 ip p sc, len⟩ = if v4mapped ip then some (.ip4 (low32 ip), p) else some (.ip6 ip, p) := by
  show (if ip = (0xffff#96 ++ ip.setWidth 32 : BitVec 128) then some (Host.ip4 (ip.setWidth 32), p)
    else some (Host.ip6 ip, p)) = _
  rw [low32_eq]
  by_cases h : v4mapped ip = true
  · rw [if_pos h, if_pos ((v4mapped_iff ip).1 h)]
  · rw [if_neg h, if_neg (fun e => h ((v4mapped_iff ip).2 e))]

def sameNamed (x y : Option (Host × BitVec 16)) (ports : Bool) : Prop :=
  match x, y with
  | some x, some y => x.1 = y.1 ∧ (ports = true → x.2 = y.2)
  | _, _ => False

theorem sameNamed_iff (x y : Option (Host × BitVec 16)) (ports : Bool) :
    (∃ h p q, x = some (h, p) ∧ y = some (h, q) ∧ (ports = true → p = q)) ↔ sameNamed x y ports := by
  constructor
  · rintro ⟨h, p, q, rfl, rfl, e⟩
    exact ⟨rfl, e⟩
  · intro e
    match x, y, e with
    | some (h, p), some (h', q), ⟨e1, e2⟩ =>
      cases e1
      exact ⟨h, p, q, rfl, rfl, e2⟩

/-- The comparison without a mask is true for addresses that name the same host and port. -/
theorem equal_named (a b : Sock) (ports : Bool) (ha : Std a) (hb : Std b) :
    equal a b ports 0 = true ↔
      ∃ h p q, named a = some (h, p) ∧ named b = some (h, q) ∧ (ports = true → p = q) := by
  have z32 : ∀ x, mask32 0 x = x := fun x => mask32_ge 0 x (Or.inl rfl)
  have z128 : ∀ x y, cmp128 0 x y = decide (x = y) := by
    intro x y
    have := cmp128_exact 0 x y (Or.inl rfl)
    by_cases h : x = y
    · rw [this.2 h]; simp [h]
    · have h2 : ¬ (cmp128 0 x y = true) := fun e => h (this.1 e)
      simp [h, h2]
  rw [sameNamed_iff]
  obtain ⟨sa, la⟩ := a
  obtain ⟨sb, lb⟩ := b
  unfold sameNamed
  cases sa with
  | v4 i1 p1 =>
    cases sb with
    | v4 i2 p2 =>
      simp only [Std] at ha hb
      subst ha; subst hb
      simp only [equal, named, z32]
      cases ports <;> grind
    | v6 i2 p2 c2 =>
      rw [named_v6]
      simp only [equal, eq64, named, z32]
      cases ports <;> grind
    | unix q2 => simp [equal, named]
    | other f => simp [equal, named]
  | v6 i1 p1 c1 =>
    cases sb with
    | v4 i2 p2 =>
      rw [named_v6]
      simp only [equal, eq64, named, z32]
      cases ports <;> grind
    | v6 i2 p2 c2 =>
      simp only [Std] at ha hb
      subst ha; subst hb
      rw [named_v6, named_v6]
      simp only [equal, z128]
      have := mapped_ext i1 i2
      cases ports <;> grind
    | unix q2 =>
      rw [named_v6]
      simp only [equal, eq64, named]
      grind
    | other f => simp [equal, eq64, named]
  | unix q1 =>
    cases sb with
    | v4 i2 p2 => simp [equal, named]
    | v6 i2 p2 c2 =>
      rw [named_v6]
      simp only [equal, eq64, named]
      grind
    | unix q2 =>
      simp only [equal, named]
      grind
    | other f => simp [equal, named]
  | other f =>
    cases sb with
    | v6 i2 p2 c2 => simp [equal, eq64, named]
    | _ => simp [equal, named]

theorem equal_trans {a b c : Sock} (ha : Std a) (hb : Std b) (hc : Std c)
    (h1 : equal a b true 0 = true) (h2 : equal b c true 0 = true) : equal a c true 0 = true := by
  obtain ⟨h, p, q, e1, e2, e3⟩ := (equal_named a b true ha hb).1 h1
  obtain ⟨h', p', q', e1', e2', e3'⟩ := (equal_named b c true hb hc).1 h2
  rw [e2] at e1'
  cases e1'
  exact (equal_named a c true ha hc).2 ⟨h, p, q', e1, e2', fun t => (e3 t).trans (e3' t)⟩

/-! ## Duplicates in a list -/

/-- Specification: the addresses of a list that no earlier one equals; `pre` are the earlier ones. -/
def firsts (pre : List Sock) : List Sock → List Sock
  | [] => []
  | x :: xs =>
    if pre.any (fun y => equal y x true 0) then firsts (pre ++ [x]) xs
    else x :: firsts (pre ++ [x]) xs

theorem firsts_congr (l : List Sock) (pre pre' : List Sock) (hl : ∀ x ∈ l, Std x)
    (h : ∀ z, Std z → (pre.any (fun y => equal y z true 0)) = pre'.any (fun y => equal y z true 0)) :
    firsts pre l = firsts pre' l := by
  induction l generalizing pre pre' with
  | nil => rfl
  | cons x xs ih =>
    have hx := hl x (List.mem_cons_self ..)
    have := ih (pre ++ [x]) (pre' ++ [x]) (fun y hy => hl y (List.mem_cons_of_mem _ hy)) (by
      intro z hz
      simp only [List.any_append, h z hz])
    simp only [firsts, h x hx, this]

theorem firsts_erase (l : List Sock) (pre : List Sock) (j : Nat) (x : Sock)
    (hl : ∀ x ∈ l, Std x) (hp : ∀ x ∈ pre, Std x) (hj : l[j]? = some x)
    (h : ∃ y ∈ pre ++ l.take j, equal y x true 0 = true) :
    firsts pre (l.eraseIdx j) = firsts pre l := by
  induction l generalizing pre j with
  | nil => simp at hj
  | cons z zs ih =>
    have hz := hl z (List.mem_cons_self ..)
    have hzs : ∀ y ∈ zs, Std y := fun y hy => hl y (List.mem_cons_of_mem _ hy)
    cases j with
    | zero =>
      simp only [List.getElem?_cons_zero, Option.some.injEq] at hj
      subst hj
      simp only [List.take_zero, List.append_nil] at h
      obtain ⟨y, hy, e⟩ := h
      have ha : pre.any (fun y => equal y z true 0) = true := List.any_eq_true.2 ⟨y, hy, e⟩
      rw [List.eraseIdx_cons_zero]
      simp only [firsts, ha, if_true]
      apply firsts_congr _ _ _ hzs
      intro w hw
      simp only [List.any_append, List.any_cons, List.any_nil, Bool.or_false]
      by_cases hb : equal z w true 0 = true
      · have : equal y w true 0 = true := equal_trans (hp y hy) hz hw e hb
        rw [List.any_eq_true.2 ⟨y, hy, this⟩]
        rfl
      · simp [hb]
    | succ j =>
      simp only [List.getElem?_cons_succ] at hj
      rw [List.eraseIdx_cons_succ]
      have := ih (pre ++ [z]) j hzs (by
        intro y hy
        rcases List.mem_append.1 hy with hy | hy
        · exact hp y hy
        · rw [List.mem_singleton.1 hy]; exact hz) hj (by simpa using h)
      simp only [firsts, this]

theorem firstDup_none (l : List Sock) (h : firstDup l = none) :
    l.Pairwise fun x y => equal x y true 0 = false := by
  induction l with
  | nil => exact List.Pairwise.nil
  | cons x xs ih =>
    simp only [firstDup] at h
    split at h
    · cases h
    · rename_i hn
      rw [List.findIdx?_eq_none_iff] at hn
      simp only [Option.map_eq_none_iff] at h
      exact List.Pairwise.cons (fun y hy => by simpa using hn y hy) (ih h)

theorem firstDup_some (l : List Sock) (i j : Nat) (h : firstDup l = some (i, j)) :
    i < j ∧ ∃ x y, l[i]? = some x ∧ l[j]? = some y ∧ equal x y true 0 = true := by
  induction l generalizing i j with
  | nil => cases h
  | cons x xs ih =>
    simp only [firstDup] at h
    split at h
    · rename_i k hk
      cases h
      obtain ⟨hlt, he, _⟩ := List.findIdx?_eq_some_iff_getElem.1 hk
      refine ⟨by omega, x, xs[k], by simp, ?_, he⟩
      rw [List.getElem?_cons_succ, List.getElem?_eq_getElem hlt]
    · rename_i hn
      rw [Option.map_eq_some_iff] at h
      obtain ⟨⟨i', j'⟩, h1, h2⟩ := h
      cases h2
      obtain ⟨h3, u, v, h4, h5, h6⟩ := ih i' j' h1
      exact ⟨by omega, u, v, by simpa using h4, by simpa using h5, h6⟩

theorem firsts_of_nodup (l pre : List Sock) (h : l.Pairwise fun x y => equal x y true 0 = false)
    (hp : ∀ y ∈ pre, ∀ x ∈ l, equal y x true 0 = false) : firsts pre l = l := by
  induction l generalizing pre with
  | nil => rfl
  | cons x xs ih =>
    have ha : ¬ (pre.any (fun y => equal y x true 0) = true) := by
      rw [List.any_eq_true]
      rintro ⟨y, hy, e⟩
      rw [hp y hy x (List.mem_cons_self ..)] at e
      cases e
    cases h with
    | cons h1 h2 =>
      simp only [firsts, if_neg ha]
      rw [ih (pre ++ [x]) h2]
      intro y hy z hz
      rcases List.mem_append.1 hy with hy | hy
      · exact hp y hy z (List.mem_cons_of_mem _ hz)
      · rw [List.mem_singleton.1 hy]; exact h1 z hz

/-! ## Positions of the iterator -/

theorem visit_full {α : Type} (p q : List (List α)) (hp : ∀ l ∈ p, l ≠ []) :
    visit (p ++ q) = p.flatten ++ visit q := by
  induction p with
  | nil => rfl
  | cons l ls ih =>
    have hl := hp l (List.mem_cons_self ..)
    cases l with
    | nil => exact absurd rfl hl
    | cons x xs =>
      show (x :: xs) ++ visit (ls ++ q) = _
      rw [ih fun l hl => hp l (List.mem_cons_of_mem _ hl)]
      simp

theorem visit_cons {α : Type} (l : List α) (q : List (List α)) (hl : l ≠ []) :
    visit (l :: q) = l ++ visit q := by
  cases l with
  | nil => exact absurd rfl hl
  | cons x xs => rfl

theorem locate_spec {α : Type} (ll : List (List α)) (j : Nat) (h : j < (visit ll).length) :
    ∃ p l q, ll = p ++ l :: q ∧ p.length = (locate ll j).1 ∧ (locate ll j).2 < l.length ∧
      (∀ x ∈ p, x ≠ []) ∧ j = p.flatten.length + (locate ll j).2 := by
  induction ll generalizing j with
  | nil => simp [visit] at h
  | cons l ls ih =>
    by_cases hl : l = []
    · subst hl; simp [visit] at h
    · by_cases hj : j < l.length
      · refine ⟨[], l, ls, rfl, ?_⟩
        simp [locate, hj]
      · rw [visit_cons _ _ hl, List.length_append] at h
        obtain ⟨p, l', q, e1, e2, e3, e4, e5⟩ := ih (j - l.length) (by omega)
        refine ⟨l :: p, l', q, by rw [e1]; rfl, ?_⟩
        simp only [locate, if_neg hj, List.length_cons]
        refine ⟨by omega, e3, ?_, ?_⟩
        · intro x hx
          rcases List.mem_cons.1 hx with rfl | hx
          · exact hl
          · exact e4 x hx
        · simp only [List.flatten_cons, List.length_append]
          omega

theorem visit_erase {α : Type} (p : List (List α)) (l : List α) (q : List (List α)) (c : Nat)
    (hp : ∀ x ∈ p, x ≠ []) (hc : c < l.length) :
    (visit (p ++ l :: q)).eraseIdx (p.flatten.length + c) =
      if l.eraseIdx c = [] then visit (p ++ q) else visit (p ++ l.eraseIdx c :: q) := by
  have hl : l ≠ [] := by intro e; subst e; simp at hc
  rw [visit_full p _ hp, visit_cons _ _ hl,
    List.eraseIdx_append_of_length_le (by omega)]
  have h1 : p.flatten.length + c - p.flatten.length = c := by omega
  rw [h1, List.eraseIdx_append_of_lt_length hc]
  split
  · rename_i e
    rw [e, List.nil_append, visit_full p _ hp]
  · rename_i e
    rw [visit_full p _ hp, visit_cons _ _ e]

theorem visit_map {α β : Type} (f : α → β) (ll : List (List α)) :
    visit (ll.map (List.map f)) = (visit ll).map f := by
  induction ll with
  | nil => rfl
  | cons l ls ih =>
    cases l with
    | nil => rfl
    | cons x xs =>
      show (x :: xs).map f ++ visit (ls.map (List.map f)) = ((x :: xs) ++ visit ls).map f
      rw [ih, List.map_append]

theorem locate_map {α β : Type} (f : α → β) (ll : List (List α)) (j : Nat) :
    locate (ll.map (List.map f)) j = locate ll j := by
  induction ll generalizing j with
  | nil => rfl
  | cons l ls ih =>
    simp only [List.map_cons, locate, List.length_map, ih]

end Gensio.AddrInfo
