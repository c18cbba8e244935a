import Verif.Lemmas.AddrInfoMem

/-!
# Addresses and lists of addresses, C160-C166
-/
namespace Gensio.AddrInfo

/-! ## C160: comparing addresses -/

/-- Two addresses with the lengths the system uses compare equal exactly when both are of a known family and
name the same host (an IPv4 host may be written as ::ffff:a.b.c.d), and, if ports are compared, the same port. -/
theorem C160_equal_partial (a b : Sock) (ports : Bool) (ha : Std a) (hb : Std b) :
    equal a b ports 0 = true ↔
      ∃ h p q, named a = some (h, p) ∧ named b = some (h, q) ∧ (ports = true → p = q) :=
  equal_named a b ports ha hb

/-- It is symmetric and transitive, and reflexive on known families. -/
theorem C160_equivalence (a b c : Sock) (ha : Std a) (hb : Std b) (hc : Std c) :
    (equal a b true 0 = equal b a true 0) ∧
    (equal a b true 0 = true → equal b c true 0 = true → equal a c true 0 = true) ∧
    ((∀ f, a.sa ≠ .other f) → equal a a true 0 = true) := by
  refine ⟨?_, equal_trans ha hb hc, ?_⟩
  · rw [Bool.eq_iff_iff, equal_named a b true ha hb, equal_named b a true hb ha]
    constructor
    · rintro ⟨h, p, q, h1, h2, h3⟩
      exact ⟨h, q, p, h2, h1, fun e => (h3 e).symm⟩
    · rintro ⟨h, p, q, h1, h2, h3⟩
      exact ⟨h, q, p, h2, h1, fun e => (h3 e).symm⟩
  · intro hf
    rw [equal_named a a true ha ha]
    obtain ⟨sa, la⟩ := a
    cases sa with
    | v4 ip p => exact ⟨_, _, _, rfl, rfl, fun _ => rfl⟩
    | v6 ip p sc =>
      rw [named_v6]
      split
      · exact ⟨_, _, _, rfl, rfl, fun _ => rfl⟩
      · exact ⟨_, _, _, rfl, rfl, fun _ => rfl⟩
    | unix q => exact ⟨_, _, _, rfl, rfl, fun _ => rfl⟩
    | other f => exact absurd rfl (hf f)

/-- 10.0.0.1 and ::ffff:10.0.0.1 at port 80 are equal, at another port they are not. -/
example : equal ⟨.v4 0x0a000001 80, 16⟩ ⟨.v6 0xffff0a000001 80 0, 28⟩ true 0 = true ∧
    equal ⟨.v4 0x0a000001 80, 16⟩ ⟨.v6 0xffff0a000001 81 0, 28⟩ true 0 = false ∧
    equal ⟨.v4 0x0a000001 80, 16⟩ ⟨.v6 0xffff0a000001 81 0, 28⟩ false 0 = true := by decide +kernel

/-- The scope is not compared: fe80::1 on two interfaces are two hosts, but equal. -/
theorem C160_scope_violated :
    equal ⟨.v6 0xfe800000000000000000000000000001 80 2, 28⟩
      ⟨.v6 0xfe800000000000000000000000000001 80 3, 28⟩ true 0 = true := by decide +kernel

/-- The same path is not equal to itself when one was read from a string and the other made with
`gensio_addr_create`: they have different lengths. -/
theorem C160_path_violated :
    (match create .unix [47, 97] none 0, scanUnix [47, 97] with
     | .ok a, .ok b => a.sa == b.sa && !equal a b true 0
     | _, _ => false) = true := by decide +kernel

/-! ## C161: subnets -/

/-- An IPv4 address is in an IPv4 subnet of `m` bits exactly when the first `m` bits agree. -/
theorem C161_v4 (i1 i2 : BitVec 32) (p1 p2 : BitVec 16) (m : Nat) (h0 : 0 < m) (hm : m ≤ 32) :
    equal ⟨.v4 i1 p1, 16⟩ ⟨.v4 i2 p2, 16⟩ false m = true ↔ ∀ k, k < m → i1.getMsbD k = i2.getMsbD k := by
  rw [← mask32_iff m i1 i2 h0 hm]
  simp [equal]

/-- An IPv6 address is in an IPv6 subnet of `m` bits exactly when the first `m` bits agree. -/
theorem C161_v6 (i1 i2 : BitVec 128) (p1 p2 : BitVec 16) (s1 s2 m : Nat) (h0 : 0 < m) (hm : m ≤ 128) :
    equal ⟨.v6 i1 p1 s1, 28⟩ ⟨.v6 i2 p2 s2, 28⟩ false m = true ↔
      ∀ k, k < m → i1.getMsbD k = i2.getMsbD k := by
  rw [← cmp128_iff m i1 i2 h0 hm]
  simp [equal]

/-- An IPv6 address is in an IPv4 subnet when it is that of an IPv4 host in it. -/
theorem C161_v6_in_v4 (i1 : BitVec 128) (i2 : BitVec 32) (p1 p2 : BitVec 16) (s1 l1 l2 m : Nat)
    (h0 : 0 < m) (hm : m ≤ 32) :
    equal ⟨.v6 i1 p1 s1, l1⟩ ⟨.v4 i2 p2, l2⟩ false m = true ↔
      i1 = (0xffff#96 ++ i1.setWidth 32 : BitVec 128) ∧
        ∀ k, k < m → (i1.setWidth 32).getMsbD k = i2.getMsbD k := by
  rw [← mask32_iff m _ i2 h0 hm, ← v4mapped_iff, ← low32_eq]
  simp [equal, eq64]

/-- An IPv4 address is in an IPv6 subnet of more than 96 bits when it is so with its IPv6 form. -/
theorem C161_v4_in_v6_partial (i1 : BitVec 32) (i2 : BitVec 128) (p1 p2 : BitVec 16) (s2 l1 l2 m : Nat)
    (h0 : 96 < m) (hm : m ≤ 128) :
    equal ⟨.v4 i1 p1, l1⟩ ⟨.v6 i2 p2 s2, l2⟩ false m = true ↔
      ∀ k, k < m → (0xffff#96 ++ i1 : BitVec 128).getMsbD k = i2.getMsbD k := by
  have h1 : m ≠ 0 := by omega
  have e : equal ⟨.v4 i1 p1, l1⟩ ⟨.v6 i2 p2 s2, l2⟩ false m = true ↔
      v4mapped i2 = true ∧ mask32 (m - 96) (low32 i2) = mask32 (m - 96) i1 := by
    simp [equal, eq64, h1, h0]
  rw [e, mask32_iff (m - 96) _ i1 (by omega) (by omega), v4mapped_iff, low32_eq]
  have hmsb : ∀ (v : BitVec 32) k, (0xffff#96 ++ v : BitVec 128).getMsbD k =
      if k < 96 then (0xffff#96).getMsbD k else v.getMsbD (k - 96) := by
    intro v k
    rw [BitVec.getMsbD_append]
    by_cases h : k < 96
    · simp [h, Nat.not_le.2 h]
    · simp [h, Nat.le_of_not_lt h]
  have hi2 : ∀ k, 96 ≤ k → k < 128 → (i2.setWidth 32).getMsbD (k - 96) = i2.getMsbD k := by
    intro k h1 h2
    simp only [BitVec.getMsbD, BitVec.getLsbD_setWidth]
    have h3 : k - 96 < 32 := by omega
    have h4 : 32 - 1 - (k - 96) = 128 - 1 - k := by omega
    have h5 : 128 - 1 - k < 32 := by omega
    simp [h2, h3, h4, h5]
  constructor
  · rintro ⟨e1, e2⟩ k hk
    rw [hmsb]
    by_cases h : k < 96
    · rw [if_pos h, e1, hmsb, if_pos h]
    · rw [if_neg h, ← e2 (k - 96) (by omega), hi2 k (by omega) (by omega)]
  · intro e1
    constructor
    · apply BitVec.eq_of_getMsbD_eq
      intro k hk
      rw [hmsb]
      by_cases h : k < 96
      · rw [if_pos h, ← e1 k (by omega), hmsb, if_pos h]
      · rw [if_neg h, hi2 k (by omega) hk]
    · intro k hk
      have := e1 (k + 96) (by omega)
      rw [hmsb, if_neg (by omega)] at this
      have h2 : k + 96 - 96 = k := by omega
      rw [h2] at this
      rw [this, ← hi2 (k + 96) (by omega) (by omega), h2]

/-- An address is present in a list exactly when one entry covers it. -/
theorem C161_present (gai : List (Nat × List Sock)) (a : Sock) (ports : Bool) :
    present gai a ports = true ↔ ∃ m l e, (m, l) ∈ gai ∧ e ∈ l ∧ equal a e ports m = true := by
  unfold present
  simp only [List.any_eq_true, Prod.exists]
  constructor
  · rintro ⟨m, l, h1, e, h2, h3⟩; exact ⟨m, l, e, h1, h2, h3⟩
  · rintro ⟨m, l, e, h1, h2, h3⟩; exact ⟨m, l, h1, e, h2, h3⟩

/-- 192.168.33.7 is in 192.168.33.0/24, 192.168.34.7 is not; the same for 2001:db8::/33. -/
example : present [(24, [⟨.v4 0xc0a82100 0, 16⟩])] ⟨.v4 0xc0a82107 1234, 16⟩ false = true ∧
    present [(24, [⟨.v4 0xc0a82100 0, 16⟩])] ⟨.v4 0xc0a82207 1234, 16⟩ false = false ∧
    present [(33, [⟨.v6 0x20010db8000000000000000000000000 0 0, 28⟩])]
      ⟨.v6 0x20010db87fff00000000000000000000 0 0, 28⟩ false = true ∧
    present [(33, [⟨.v6 0x20010db8000000000000000000000000 0 0, 28⟩])]
      ⟨.v6 0x20010db8800000000000000000000000 0 0, 28⟩ false = false := by decide +kernel

/-- "0.0.0.0/0", all addresses, has the mask 0, which stands for none: it covers 0.0.0.0 only. -/
theorem C161_zero_violated :
    scanMask .inet true (some 0) = .ok 0 ∧
    present [(0, [⟨.v4 0 0, 16⟩])] ⟨.v4 0x0a000001 0, 16⟩ false = false := by
  refine ⟨rfl, by decide +kernel⟩

/-- ::ffff:0:0/96, all IPv4 hosts, covers 10.0.0.1 when that is given as an IPv6 address and not when it is
given as an IPv4 address. -/
theorem C161_mapped_violated :
    present [(96, [⟨.v6 0xffff00000000 0 0, 28⟩])] ⟨.v6 0xffff0a000001 0 0, 28⟩ false = true ∧
    present [(96, [⟨.v6 0xffff00000000 0 0, 28⟩])] ⟨.v4 0x0a000001 0, 16⟩ false = false := by
  decide +kernel

/-! ## C162, C163: duplicates, sharing and memory -/

/-- What the user must see to: the addresses used are in use, the allocations that are not checked, or whose
failure is handled wrongly, succeed, and when two addresses are put together, an address that equals an earlier
one is in a list from `getaddrinfo` or one never shared. -/
def CarefulOp (w : W) : Op → Prop
  | .scan _ _ => True
  | .make _ _ => True
  | .dup a m => (∃ its, w.addr a = some its) ∧ (∀ b ∈ m.link, b = true) ∧ ∀ b ∈ m.copy, b = true
  | .cat a b m => ∃ its1 its2, w.addr a = some its1 ∧ w.addr b = some its2 ∧
      (∀ b ∈ m.link, b = true) ∧ (∀ b ∈ m.copy, b = true) ∧
      ∀ (i j : Nat) x y, i < j → (visit (marked w.chains (its1 ++ its2)))[i]? = some x →
        (visit (marked w.chains (its1 ++ its2)))[j]? = some y → equal x.1 y.1 true 0 = true → y.2 = true
  | .free a => ∃ its, w.addr a = some its

def Careful (w : W) : List Op → Prop
  | [] => True
  | o :: os => CarefulOp w o ∧ ∀ w', step w o = some w' → Careful w' os

theorem fine_of_forall {l : List (Sock × Bool)} (h : ∀ (i j : Nat) x y, i < j → l[i]? = some x →
    l[j]? = some y → equal x.1 y.1 true 0 = true → y.2 = true) : Fine l := by
  unfold Fine
  rw [List.pairwise_iff_getElem]
  intro i j hi hj hij e
  exact h i j _ _ hij (List.getElem?_eq_getElem hi) (List.getElem?_eq_getElem hj) e

theorem step_ok {w : W} {o : Op} (hw : Ok w.chains w.all) (ho : CarefulOp w o) :
    ∃ w', step w o = some w' ∧ Ok w'.chains w'.all ∧
      ∀ b its, w.addr b = some its → o ≠ .free b → w'.addr b = some its ∧ w'.list b = w.list b := by
  cases o with
  | scan l al =>
    obtain ⟨w', r, h1, h2, _⟩ := scan_adds w hw l al
    exact ⟨w', h1, h2.ok, fun b its hb _ => h2.list hb⟩
  | make cells only =>
    have h := (make_adds w hw cells only).1
    exact ⟨_, rfl, h.ok, fun b its hb _ => h.list hb⟩
  | dup a m =>
    obtain ⟨⟨its, ha⟩, h1, h2⟩ := ho
    obtain ⟨w', r, e1, e2, _⟩ := dup_adds w hw ha m ⟨h1, h2⟩
    refine ⟨w', ?_, e2.ok, fun b its hb _ => e2.list hb⟩
    simp only [step, ha, Option.bind_some, e1]
  | cat a b m =>
    obtain ⟨its1, its2, ha, hb, h1, h2, h3⟩ := ho
    obtain ⟨w', r, e1, e2, _⟩ := cat_adds w hw ha hb m ⟨h1, h2⟩ (fine_of_forall h3)
    refine ⟨w', ?_, e2.ok, fun b its hb _ => e2.list hb⟩
    simp only [step, ha, hb, Option.bind_some, e1]
  | free a =>
    obtain ⟨its, ha⟩ := ho
    obtain ⟨cs, f1, f2, f3⟩ := free_ok w hw ha
    refine ⟨⟨cs, w.addrs.set a none⟩, by simp only [step, ha, Option.bind_some, f1, Option.map_some], f2, ?_⟩
    intro b l hb hne
    exact f3 b l (fun e => hne (by rw [e])) hb

theorem run_ok (os : List Op) (w : W) (hw : Ok w.chains w.all) (ho : Careful w os) :
    ∃ w', run w os = some w' ∧ Ok w'.chains w'.all := by
  induction os generalizing w with
  | nil => exact ⟨w, rfl, hw⟩
  | cons o os ih =>
    obtain ⟨w1, e1, h1, _⟩ := step_ok hw ho.1
    obtain ⟨w2, e2, h2⟩ := ih w1 h1 (ho.2 w1 e1)
    exact ⟨w2, by simp only [run, e1, Option.bind_some, e2], h2⟩

theorem ok_empty : Ok ({} : W).chains ({} : W).all :=
  ⟨fun it h => (nomatch h), fun k c h => (nomatch h)⟩

/-- In careful runs nothing freed is used and no assertion fails, all lists an address refers to are allocated, and
all that is allocated is referred to by an address in use. -/
theorem C163_memory_partial (os : List Op) (ho : Careful {} os) :
    ∃ w, run {} os = some w ∧
      (∀ a its, w.addr a = some its → ∀ it ∈ its,
        ∃ c, w.chains[it.chain]? = some c ∧ c.live = true ∧ it.gone = c.gone) ∧
      (∀ (k : Nat) (c : Chain), w.chains[k]? = some c → c.live = true →
        ∃ a its it, w.addr a = some its ∧ it ∈ its ∧ it.chain = k) := by
  obtain ⟨w, e, h⟩ := run_ok os {} ok_empty ho
  refine ⟨w, e, ?_, ?_⟩
  · intro a its ha it hi
    obtain ⟨c, hc, _⟩ := h.good it (mem_all ha it hi)
    exact ⟨c, chainOf_eq hc⟩
  · intro k c hk hl
    have hr := h.refs k c hk hl
    have hpos : 0 < cnt k w.all := by
      cases hrc : c.rc with
      | none => have := hr.1 hrc; omega
      | some n => have := hr.2 n hrc; omega
    obtain ⟨it, h1, h2⟩ := List.countP_pos_iff.1 hpos
    obtain ⟨a, its, h3, h4⟩ := mem_all_iff h1
    exact ⟨a, its, it, h3, h4, by simpa using h2⟩

/-- An operation changes no other address: after a careful operation each address in use but the one freed is in
use and has the list it had. -/
theorem C163_others_partial (os : List Op) (ho : Careful {} os) {w : W} (e : run {} os = some w) (o : Op)
    (hc : CarefulOp w o) :
    ∃ w', step w o = some w' ∧ ∀ b its, w.addr b = some its → o ≠ .free b →
      (∃ its', w'.addr b = some its') ∧ ∃ l, w.list b = some l ∧ w'.list b = some l := by
  obtain ⟨w1, e1, h⟩ := run_ok os {} ok_empty ho
  rw [e] at e1
  cases e1
  obtain ⟨w', e2, h2, h3⟩ := step_ok h hc
  refine ⟨w', e2, ?_⟩
  intro b its hb hne
  obtain ⟨k1, k2⟩ := h3 b its hb hne
  obtain ⟨l, hl⟩ := list_some h hb
  exact ⟨⟨its, k1⟩, l, hl, by rw [k2, hl]⟩

/-- A copy has the list of the original. -/
theorem C163_dup_partial (os : List Op) (ho : Careful {} os) {w : W} (e : run {} os = some w) (a : Nat)
    (its : List Item) (ha : w.addr a = some its) :
    ∃ w', step w (.dup a {}) = some w' ∧ ∃ l, w.list a = some l ∧ w'.list w.addrs.length = some l := by
  obtain ⟨w1, e1, h⟩ := run_ok os {} ok_empty ho
  rw [e] at e1
  cases e1
  obtain ⟨w', r, d1, d2, d3, d4⟩ := dup_adds w h ha {} ⟨by simp, by simp⟩
  obtain ⟨l, hl⟩ := list_some h ha
  refine ⟨w', by simp only [step, ha, Option.bind_some, d1], l, hl, ?_⟩
  rw [d4 (d3 rfl (by simp)), hl]

def sk (ip : BitVec 32) : Sock := ⟨.v4 ip 80, 16⟩

/-- Two addresses read from strings, put together (one duplicate), copied, the originals freed. -/
def exOps : List Op := [.scan [(0, [sk 1, sk 2]), (0, [sk 1, sk 3])] [], .scan [(0, [sk 3, sk 4])] [], .cat 0 1 {},
  .dup 2 {}, .free 0, .free 2, .free 1]

/-- Whether an operation is careful, by computation. -/
def carefulOp (w : W) : Op → Bool
  | .scan _ _ => true
  | .make _ _ => true
  | .dup a m => (w.addr a).isSome && m.link.all id && m.copy.all id
  | .cat a b m => (match w.addr a, w.addr b with
      | some its1, some its2 =>
        let l := visit (marked w.chains (its1 ++ its2))
        m.link.all id && m.copy.all id && (List.range l.length).all fun j =>
          (l.take j).all fun x => (l[j]?).all fun y => !equal x.1 y.1 true 0 || y.2
      | _, _ => false)
  | .free a => (w.addr a).isSome

def careful (w : W) : List Op → Bool
  | [] => true
  | o :: os => carefulOp w o && (match step w o with | some w' => careful w' os | none => true)

theorem careful_sound (os : List Op) (w : W) (h : careful w os = true) : Careful w os := by
  induction os generalizing w with
  | nil => trivial
  | cons o os ih =>
    simp only [careful, Bool.and_eq_true] at h
    refine ⟨?_, ?_⟩
    · have h1 := h.1
      cases o with
      | scan => trivial
      | make => trivial
      | dup a m =>
        simp only [carefulOp, Bool.and_eq_true, List.all_eq_true, id] at h1
        exact ⟨Option.isSome_iff_exists.1 h1.1.1, h1.1.2, h1.2⟩
      | cat a b m =>
        simp only [carefulOp] at h1
        split at h1
        · rename_i its1 its2 e1 e2
          simp only [Bool.and_eq_true, List.all_eq_true, id, List.mem_range] at h1
          refine ⟨its1, its2, e1, e2, h1.1.1, h1.1.2, ?_⟩
          intro i j x y hij hx hy he
          have := h1.2 j (lt_of_get hy) x (by
            have : ((visit (marked w.chains (its1 ++ its2))).take j)[i]? = some x := by
              rw [List.getElem?_take_of_lt hij]; exact hx
            exact List.mem_of_getElem? this)
          rw [hy] at this
          simpa [he] using this
        · cases h1
      | free a => exact Option.isSome_iff_exists.1 h1
    · intro w' e
      have h2 := h.2
      rw [e] at h2
      exact ih w' h2

/-- The example is careful, and its last address has the four addresses in order. -/
example : Careful {} exOps ∧ ((run {} exOps).bind fun w => w.list 3) = some [sk 1, sk 2, sk 3, sk 4] :=
  ⟨careful_sound _ _ (by decide +kernel), by decide +kernel⟩

/-- Putting an address made with `gensio_addr_create` together with itself uses freed memory. -/
theorem C163_cat_self_violated :
    run {} [.make [sk 1] false, .cat 0 0 {}] = none := by decide +kernel

/-- Putting two made addresses for the same host together succeeds, and the second is then one whose memory was
freed: freeing it, or reading it, uses freed memory. -/
theorem C163_cat_made_violated :
    (match run {} [.make [sk 1] false, .make [sk 1] false, .cat 0 1 {}] with
     | some w => w.list 2 == some [sk 1] && (w.addr 1).isSome && w.list 1 == none && careful w [.free 1] &&
        step w (.dup 1 {}) != none
     | none => false) = true := by decide +kernel

/-- Removing a duplicate that is not the first of a shared list removes it from the argument too. -/
theorem C163_cat_argument_violated :
    (match run {} [.scan [(0, [sk 1, sk 2]), (0, [sk 2, sk 3])] [], .scan [(0, [sk 3, sk 4]), (0, [sk 4, sk 5, sk 6])] [],
        .scan [(0, [sk 6])] []] with
     | some w =>
       (match run w [.cat 2 1 {}] with
        | some w' => w.list 1 == some [sk 3, sk 4, sk 5, sk 6] && w'.list 1 == some [sk 3, sk 4, sk 5] &&
            w'.list 3 == some [sk 6, sk 3, sk 4, sk 5]
        | none => false)
     | none => false) = true := by decide +kernel

/-- An item of a copy that cannot be allocated is written to all the same. -/
theorem C163_link_violated :
    run {} [.scan [(0, [sk 1]), (0, [sk 2])] [], .dup 0 { link := [false] }] = none := by decide +kernel

/-- When the copy of an address made for received packets fails for want of memory, the original's memory is
freed. -/
theorem C163_copy_violated :
    (match run {} [.make [sk 1] true, .dup 0 { copy := [false] }] with
     | some w => (w.addr 0).isSome && w.addr 1 == none && w.list 0 == none && step w (.free 0) == none
     | none => false) = true := by decide +kernel

/-- The list of an address read from a string: of what `getaddrinfo` gave, in order, the ones that no earlier one
equals; so no two of them are equal. -/
theorem C162_scan (os : List Op) (ho : Careful {} os) {w : W} (e : run {} os = some w)
    (l : List (Nat × List Sock)) (hl : l ≠ []) (hne : ∀ p ∈ l, p.2 ≠ []) :
    ∃ w' res, step w (.scan l []) = some w' ∧ w'.list w.addrs.length = some res ∧
      res.Pairwise (fun x y => equal x y true 0 = false) ∧ res.Sublist (l.flatMap (·.2)) ∧
      ((∀ x ∈ l.flatMap (·.2), Std x) → res = firsts [] (l.flatMap (·.2))) := by
  obtain ⟨w1, e1, h⟩ := run_ok os {} ok_empty ho
  rw [e] at e1
  cases e1
  obtain ⟨w', r, d1, d2, d3, d4⟩ := scan_adds w h l []
  obtain ⟨res, r1, r2, r3, r4⟩ := d4 (d3 hl (by simp))
  have hv : visit (l.map (·.2)) = l.flatMap (·.2) := by
    have := visit_full (l.map (·.2)) [] (by
      intro x hx
      obtain ⟨p, hp, rfl⟩ := List.mem_map.1 hx
      exact hne p hp)
    rw [List.append_nil] at this
    rw [this, List.flatMap_def]
    simp [visit]
  rw [hv] at r3 r4
  exact ⟨w', res, d1, r1, r2, r3, r4⟩

/-- What `firsts` is: the addresses that no earlier one equals. -/
theorem firsts_eq (pre l : List Sock) : firsts pre l =
    ((l.zipIdx pre.length).filter fun p => !((pre ++ l).take p.2).any fun y => equal y p.1 true 0).map (·.1) := by
  induction l generalizing pre with
  | nil => rfl
  | cons x xs ih =>
    have h := ih (pre ++ [x])
    have e2 : (pre ++ [x]) ++ xs = pre ++ x :: xs := by simp
    rw [e2, List.length_append, List.length_singleton] at h
    simp only [firsts, List.zipIdx_cons, List.filter_cons]
    have e1 : (pre ++ x :: xs).take pre.length = pre := by simp
    rw [e1]
    by_cases hp : pre.any (fun y => equal y x true 0) = true
    · rw [if_pos hp, hp, h]
      rfl
    · rw [if_neg hp]
      simp only [Bool.not_eq_true] at hp
      rw [hp, h]
      rfl

theorem C162_firsts (l : List Sock) : firsts [] l =
    (l.zipIdx.filter fun p => !(l.take p.2).any fun y => equal y p.1 true 0).map (·.1) :=
  firsts_eq [] l

/-- Two addresses put together by a careful user: the list of the first followed by that of the second, less those
that an earlier one equals.  The lists of both must be without empty items (`gensio_addr_addrinfo_make` of size 0). -/
theorem C162_cat_partial (os : List Op) (ho : Careful {} os) {w : W} (e : run {} os = some w) (a b : Nat)
    (hc : CarefulOp w (.cat a b {})) :
    ∃ w' l n1 n2 its1 its2, step w (.cat a b {}) = some w' ∧ w'.list w.addrs.length = some l ∧
      w.addr a = some its1 ∧ w.addr b = some its2 ∧ nested w.chains its1 = some n1 ∧
      nested w.chains its2 = some n2 ∧
      ((∀ x ∈ n1 ++ n2, x ≠ []) →
        w.list a = some n1.flatten ∧ w.list b = some n2.flatten ∧
        l.Pairwise (fun x y => equal x y true 0 = false) ∧ l.Sublist (n1.flatten ++ n2.flatten) ∧
        ((∀ x ∈ n1.flatten ++ n2.flatten, Std x) → l = firsts [] (n1.flatten ++ n2.flatten))) := by
  obtain ⟨w1, e1, h⟩ := run_ok os {} ok_empty ho
  rw [e] at e1
  cases e1
  obtain ⟨its1, its2, ha, hb, h1, h2, h3⟩ := hc
  obtain ⟨w', r, d1, d2, d3, d4⟩ := cat_adds w h ha hb {} ⟨h1, h2⟩ (fine_of_forall h3)
  obtain ⟨l, n1, n2, r1, r2, r3, r4, r5, r6⟩ := d4 (d3 rfl rfl (by simp) (by simp))
  refine ⟨w', l, n1, n2, its1, its2, by simp only [step, ha, hb, Option.bind_some, d1], r1, ha, hb, r2, r3, ?_⟩
  intro hne
  have hv : ∀ n : List (List Sock), (∀ x ∈ n, x ≠ []) → visit n = n.flatten := by
    intro n hn
    have := visit_full n [] hn
    rw [List.append_nil] at this
    rw [this]
    simp [visit]
  rw [hv _ hne, List.flatten_append] at r5 r6
  refine ⟨?_, ?_, r4, r5, r6⟩
  · unfold W.list
    rw [ha]
    simp [r2, hv n1 fun x hx => hne x (by simp [hx])]
  · unfold W.list
    rw [hb]
    simp [r3, hv n2 fun x hx => hne x (by simp [hx])]

/-- 10.0.0.0/16 followed by 10.0.0.0/8: the second is removed as a duplicate, and 10.1.0.1, which is in it, is no
longer allowed. -/
theorem C162_masks_violated :
    (match run {} [.scan [(16, [⟨.v4 0x0a000000 0, 16⟩]), (8, [⟨.v4 0x0a000000 0, 16⟩])] []] with
     | some w => w.list 0 == some [⟨.v4 0x0a000000 0, 16⟩] &&
        (w.addr 0).map (fun its => its.map Item.mask) == some [16] &&
        !present [(16, [⟨.v4 0x0a000000 0, 16⟩])] ⟨.v4 0x0a010001 0, 16⟩ false &&
        present [(16, [⟨.v4 0x0a000000 0, 16⟩]), (8, [⟨.v4 0x0a000000 0, 16⟩])] ⟨.v4 0x0a010001 0, 16⟩ false
     | none => false) = true := by decide +kernel

/-- Of fe80::1 on two interfaces one is removed. -/
theorem C162_scope_violated :
    (match run {} [.scan [(0, [⟨.v6 0xfe800000000000000000000000000001 80 2, 28⟩]),
        (0, [⟨.v6 0xfe800000000000000000000000000001 80 3, 28⟩])] []] with
     | some w => w.list 0 == some [⟨.v6 0xfe800000000000000000000000000001 80 2, 28⟩]
     | none => false) = true := by decide +kernel

/-- An empty address put before another hides it. -/
theorem C162_empty_violated :
    (match run {} [.make [] false, .make [sk 1] false, .cat 0 1 {}] with
     | some w => w.list 1 == some [sk 1] && w.list 2 == some []
     | none => false) = true := by decide +kernel

/-! ## C164: the iterator -/

/-- What `n` calls of `gensio_addrinfo_iter_next` give. -/
def Iter.nexts : Nat → Iter → List (Option Sock)
  | 0, _ => []
  | n + 1, i => i.next.1 :: Iter.nexts n i.next.2

/-- What is still to come. -/
def Iter.left (i : Iter) : List Sock := visit (i.cur :: i.rest)

theorem next_left (i : Iter) : i.next.1 = i.left.head? ∧ i.next.2.left = i.left.tail := by
  obtain ⟨cur, rest⟩ := i
  match cur with
  | [] => exact ⟨rfl, rfl⟩
  | [x] =>
    cases rest with
    | nil => exact ⟨rfl, rfl⟩
    | cons l ls => exact ⟨rfl, rfl⟩
  | x :: y :: xs => exact ⟨rfl, rfl⟩

theorem nexts_left (n : Nat) (i : Iter) :
    i.nexts n = (List.range n).map fun k => i.left[k]? := by
  induction n generalizing i with
  | zero => rfl
  | succ n ih =>
    rw [List.range_succ_eq_map]
    simp only [Iter.nexts, ih, List.map_cons, List.map_map]
    obtain ⟨h1, h2⟩ := next_left i
    rw [h1, h2]
    congr 1
    · rw [List.head?_eq_getElem?]
    · apply List.map_congr_left
      intro k _
      simp

theorem setup_left (ll : List (List Sock)) : (Iter.setup ll).left = visit ll := by
  cases ll <;> rfl

/-- The `k`-th call gives the `k`-th address of the lists in order, and NULL after the last. -/
theorem C164_iterate (ll : List (List Sock)) (n : Nat) (hne : ∀ l ∈ ll, l ≠ []) :
    (Iter.setup ll).nexts n = (List.range n).map fun k => ll.flatten[k]? := by
  rw [nexts_left, setup_left]
  have := visit_full ll [] hne
  rw [List.append_nil] at this
  rw [this]
  simp [visit]

/-- The current address after `k` successful calls of `gensio_addr_next`. -/
def Iter.steps : Nat → Iter → Iter
  | 0, i => i
  | n + 1, i => Iter.steps n (addrNext i).2

theorem addrNext_left (i : Iter) (hne : ∀ l ∈ i.rest, l ≠ []) :
    ((addrNext i).1 = true ↔ 1 < i.left.length) ∧
    (addrNext i).2.left = (if 1 < i.left.length then i.left.tail else i.left) ∧
    (addrNext i).2.rest.Sublist i.rest := by
  obtain ⟨cur, rest⟩ := i
  match cur with
  | [] => simp [addrNext, Iter.left, visit]
  | [x] =>
    cases rest with
    | nil => simp [addrNext, Iter.left, visit]
    | cons l ls =>
      cases l with
      | nil => exact absurd rfl (hne [] (by simp))
      | cons y ys => simp [addrNext, Iter.left, visit, Iter.next]
  | x :: y :: xs => simp [addrNext, Iter.left, visit, Iter.next]

theorem steps_left (k : Nat) (i : Iter) (hne : ∀ l ∈ i.rest, l ≠ []) :
    (i.steps k).left = i.left.drop (min k (i.left.length - 1)) ∧ ∀ l ∈ (i.steps k).rest, l ≠ [] := by
  induction k generalizing i with
  | zero => exact ⟨by simp [Iter.steps], hne⟩
  | succ k ih =>
    obtain ⟨h1, h2, h3⟩ := addrNext_left i hne
    have h4 := ih (addrNext i).2 (fun l hl => hne l (h3.subset hl))
    refine ⟨?_, h4.2⟩
    show ((addrNext i).2.steps k).left = _
    rw [h4.1, h2]
    split
    · rename_i hl
      rw [List.length_tail]
      have : min (k + 1) (i.left.length - 1) = min k (i.left.length - 1 - 1) + 1 := by omega
      rw [this, ← List.drop_one, List.drop_drop]
      congr 1
      omega
    · rename_i hl
      have e1 : min k (i.left.length - 1) = 0 := by omega
      have e2 : min (k + 1) (i.left.length - 1) = 0 := by omega
      rw [e1, e2]

/-- `gensio_addr_next` goes through all addresses in order and stays at the last, where it returns false. -/
theorem C164_next_partial (ll : List (List Sock)) (k : Nat) (hne : ∀ l ∈ ll, l ≠ []) :
    ((Iter.setup ll).steps k).curr = ll.flatten[min k (ll.flatten.length - 1)]? ∧
    ((addrNext ((Iter.setup ll).steps k)).1 = true ↔ k + 1 < ll.flatten.length) := by
  have hv : (Iter.setup ll).left = ll.flatten := by
    rw [setup_left]
    have := visit_full ll [] hne
    rw [List.append_nil] at this
    rw [this]
    simp [visit]
  have hr : ∀ l ∈ (Iter.setup ll).rest, l ≠ [] := by
    cases ll with
    | nil => simp [Iter.setup]
    | cons x xs => exact fun l hl => hne l (List.mem_cons_of_mem _ hl)
  obtain ⟨h1, h2⟩ := steps_left k (Iter.setup ll) hr
  rw [hv] at h1
  have hc : ∀ i : Iter, i.curr = i.left.head? := by
    intro i
    obtain ⟨cur, rest⟩ := i
    cases cur <;> rfl
  refine ⟨?_, ?_⟩
  · rw [hc, h1, List.head?_drop]
  · rw [(addrNext_left _ h2).1, h1, List.length_drop]
    omega

/-- Three addresses in two lists. -/
example : (Iter.setup [[sk 1, sk 2], [sk 3]]).nexts 4 = [some (sk 1), some (sk 2), some (sk 3), none] ∧
    ((Iter.setup [[sk 1, sk 2], [sk 3]]).steps 5).curr = some (sk 3) := by decide +kernel

/-- With an empty list behind the last address, `gensio_addr_next` says there is one more; then there is no current
address. -/
theorem C164_next_empty_violated :
    (addrNext (Iter.setup [[sk 1], []])).1 = true ∧ (addrNext (Iter.setup [[sk 1], []])).2.curr = none := by
  decide +kernel

theorem equalAll_iff (n : Nat) (i1 i2 : Iter) (ports : Bool) (hn : i1.left.length < n) :
    equalAll n i1 i2 ports = true ↔ i1.left.length = i2.left.length ∧
      ∀ (k : Nat) x y, i1.left[k]? = some x → i2.left[k]? = some y → equal x y ports 0 = true := by
  induction n generalizing i1 i2 with
  | zero => omega
  | succ n ih =>
    obtain ⟨h1, h2⟩ := next_left i1
    obtain ⟨h3, h4⟩ := next_left i2
    unfold equalAll
    cases e1 : i1.next with
    | mk o1 j1 =>
      cases e2 : i2.next with
      | mk o2 j2 =>
        rw [e1] at h1 h2
        rw [e2] at h3 h4
        simp only [] at h1 h2 h3 h4
        have hih := ih j1 j2
        rw [h2, h4] at hih
        generalize i1.left = l1 at *
        generalize i2.left = l2 at *
        cases l1 with
        | nil =>
          cases l2 with
          | nil => subst h1 h3; simp
          | cons y ys => subst h1 h3; simp
        | cons x xs =>
          cases l2 with
          | nil => subst h1 h3; simp
          | cons y ys =>
            subst h1 h3
            simp only [List.head?_cons, List.tail_cons, List.length_cons] at *
            have hih := hih (by omega)
            by_cases he : equal x y ports 0 = true
            · rw [if_pos he, hih]
              constructor
              · rintro ⟨g1, g2⟩
                refine ⟨by omega, ?_⟩
                intro k a b ha hb
                cases k with
                | zero =>
                  simp only [List.getElem?_cons_zero, Option.some.injEq] at ha hb
                  subst ha hb
                  exact he
                | succ k => exact g2 k a b (by simpa using ha) (by simpa using hb)
              · rintro ⟨g1, g2⟩
                exact ⟨by omega, fun k a b ha hb => g2 (k + 1) a b (by simpa using ha) (by simpa using hb)⟩
            · rw [if_neg he]
              simp only [Bool.false_eq_true, false_iff]
              rintro ⟨_, g2⟩
              exact he (g2 0 x y rfl rfl)

/-- Comparing all addresses: true exactly when the lists have the same length and are equal one by one. -/
theorem C164_equal_all (n1 n2 : List (List Sock)) (c1 c2 : Iter) (ports : Bool)
    (h1 : ∀ l ∈ n1, l ≠ []) (h2 : ∀ l ∈ n2, l ≠ []) :
    ∃ r, addrEqual n1 n2 c1 c2 ports true = some r ∧
      (r = true ↔ n1.flatten.length = n2.flatten.length ∧
        ∀ (k : Nat) x y, n1.flatten[k]? = some x → n2.flatten[k]? = some y → equal x y ports 0 = true) := by
  have hv : ∀ n : List (List Sock), (∀ x ∈ n, x ≠ []) → visit n = n.flatten := by
    intro n hn
    have := visit_full n [] hn
    rw [List.append_nil] at this
    rw [this]
    simp [visit]
  refine ⟨_, rfl, ?_⟩
  rw [equalAll_iff _ _ _ _ (by rw [setup_left]; omega), setup_left, setup_left, hv n1 h1, hv n2 h2]

/-- Comparing the current addresses of two addresses, one of them empty, uses NULL. -/
theorem C164_current_violated :
    addrEqual [[]] [[sk 1]] (Iter.setup [[]]) (Iter.setup [[sk 1]]) true false = none := by decide +kernel

/-! ## C165: masks in strings -/

/-- A mask of an IPv6 address, or one of a numeric IPv4 address announced by "ipv4", below 2^32: it is taken as it is
up to the width of the address and rejected above. -/
theorem C165_mask_partial (f : Fam) (num : Bool) (n : Nat) (hn : n < 4294967296)
    (hf : f = .inet6 ∨ num = true) :
    scanMask f num (some n) =
      if n ≤ (match f with | .inet => 32 | .inet6 => 128) then .ok n else .error .inval := by
  have h1 : min n 18446744073709551615 % 4294967296 = n := by omega
  cases f with
  | inet =>
    have hnum : num = true := by
      rcases hf with h | h
      · cases h
      · exact h
    subst hnum
    simp only [scanMask, h1]
    by_cases h : n ≤ 32
    · have h2 : ¬ (n > 32) := by omega
      have h3 : n % 256 = n := by omega
      simp [h, h2, h3]
    · have h2 : n > 32 := by omega
      simp [h, h2]
  | inet6 =>
    simp only [scanMask, h1]
    by_cases h : n ≤ 128
    · have h2 : ¬ (n > 128) := by omega
      have h3 : n % 256 = n := by omega
      simp [h, h2, h3]
    · have h2 : n > 128 := by omega
      simp [h, h2]

example : scanMask .inet6 false (some 64) = .ok 64 ∧ scanMask .inet true (some 33) = .error .inval := ⟨rfl, rfl⟩

/-- A mask of 2^32 is taken as none. -/
theorem C165_large_violated : scanMask .inet true (some 4294967296) = .ok 0 := by rfl

/-- A name with the mask 300 gets the mask 44. -/
theorem C165_name_violated : scanMask .inet false (some 300) = .ok 44 := by rfl

/-- 10.0.0.0/100, without "ipv4" before it, is accepted, and covers 10.0.0.0 only. -/
theorem C165_family_violated :
    scanMask .inet6 true (some 100) = .ok 100 ∧
    present [(100, [⟨.v4 0x0a000000 0, 16⟩])] ⟨.v4 0x0a000001 0, 16⟩ false = false := by
  refine ⟨rfl, by decide +kernel⟩

/-! ## C166: making an address and reading it -/

/-- Bytes as a number. -/
def val (l : List UInt8) : Nat := l.foldl (fun acc b => acc * 256 + b.toNat) 0

theorem val_snoc (l : List UInt8) (b : UInt8) : val (l ++ [b]) = val l * 256 + b.toNat := by
  unfold val
  rw [List.foldl_append]
  rfl

theorem snocRec {P : List UInt8 → Prop} (h0 : P []) (h1 : ∀ l b, P l → P (l ++ [b])) (l : List UInt8) : P l := by
  have : ∀ m : List UInt8, P m.reverse := by
    intro m
    induction m with
    | nil => exact h0
    | cons b m ih => rw [List.reverse_cons]; exact h1 _ _ ih
  simpa using this l.reverse

theorem val_lt (l : List UInt8) : val l < 256 ^ l.length := by
  induction l using snocRec with
  | h0 => decide
  | h1 l b ih =>
    rw [val_snoc, List.length_append, List.length_singleton, Nat.pow_succ]
    have := b.toNat_lt
    omega

theorem ofBytes_snoc (n : Nat) (l : List UInt8) (b : UInt8) :
    ofBytes n (l ++ [b]) = (ofBytes n l <<< 8) ||| BitVec.ofNat n b.toNat := by
  unfold ofBytes
  rw [List.foldl_append]
  rfl

theorem ofBytes_toNat (n : Nat) (l : List UInt8) (h : 8 * l.length ≤ n) : (ofBytes n l).toNat = val l := by
  induction l using snocRec with
  | h0 => simp [ofBytes, val]
  | h1 l b ih =>
    rw [List.length_append, List.length_singleton] at h
    rw [ofBytes_snoc, val_snoc, BitVec.toNat_or, BitVec.toNat_shiftLeft, ih (by omega), BitVec.toNat_ofNat]
    have h1 := val_lt l
    have h2 := b.toNat_lt
    have h3 : (256 : Nat) ^ l.length * 256 ≤ 2 ^ n := by
      have : (256 : Nat) ^ l.length * 256 = 2 ^ (8 * (l.length + 1)) := by
        rw [Nat.pow_mul]
        rw [Nat.pow_succ]
      rw [this]
      exact Nat.pow_le_pow_right (by decide) (by omega)
    have h4 : val l * 256 + 256 ≤ 2 ^ n := by
      have h6 : (val l + 1) * 256 ≤ 256 ^ l.length * 256 := Nat.mul_le_mul_right _ h1
      rw [Nat.add_mul, Nat.one_mul] at h6
      exact Nat.le_trans h6 h3
    rw [Nat.shiftLeft_eq]
    clear h3
    have h5 : (2 : Nat) ^ 8 = 256 := by decide
    rw [h5, Nat.mod_eq_of_lt (by omega), Nat.mod_eq_of_lt (by omega)]
    have h6 := Nat.shiftLeft_add_eq_or_of_lt (i := 8) (b := b.toNat) (by omega) (val l)
    rw [Nat.shiftLeft_eq, h5] at h6
    exact h6.symm

theorem toBytes_val (l : List UInt8) : toBytes l.length (val l) = l := by
  induction l using snocRec with
  | h0 => rfl
  | h1 l b ih =>
    rw [List.length_append, List.length_singleton]
    unfold toBytes at ih ⊢
    rw [List.range_succ, List.map_append]
    congr 1
    · refine Eq.trans ?_ ih
      apply List.map_congr_left
      intro i hi
      rw [List.mem_range] at hi
      congr 1
      rw [val_snoc, Nat.shiftRight_eq_div_pow, Nat.shiftRight_eq_div_pow]
      have h1 : l.length + 1 - 1 - i = (l.length - 1 - i) + 1 := by omega
      have h2 : 8 * ((l.length - 1 - i) + 1) = 8 + 8 * (l.length - 1 - i) := by omega
      rw [h1, h2, Nat.pow_add, ← Nat.div_div_eq_div_mul]
      congr 1
      have h5 : (2 : Nat) ^ 8 = 256 := by decide
      have := b.toNat_lt
      rw [h5]
      omega
    · simp only [List.map_cons, List.map_nil, Nat.add_sub_cancel, Nat.sub_self, Nat.mul_zero,
        Nat.shiftRight_zero, List.cons.injEq, and_true]
      rw [val_snoc]
      apply UInt8.toNat_inj.1
      have := b.toNat_lt
      rw [UInt8.toNat_ofNat']
      omega

/-- The bytes and the port given come back: all bytes if the buffer has room for them, and their number; of a path
also the zero byte that ends it.  The port is below 65536, and a path has no zero byte. -/
theorem C166_roundtrip_partial (t : NetType) (data : List UInt8) (scope : Option Nat) (port : Nat) (s : Sock)
    (h : create t data scope port = .ok s) (hp : port < 65536) (hz : t = .unix → ∀ b ∈ data, b ≠ 0) (ilen : Nat) :
    (t ≠ .unix → getData (some s) ilen = (data.take ilen, data.length) ∧ getPort (some s) = some port) ∧
    (t = .unix → getData (some s) ilen = ((data ++ [0]).take ilen, data.length + 1) ∧
      getPort (some s) = none) := by
  have hport : (BitVec.ofNat 16 port).toNat = port := by
    rw [BitVec.toNat_ofNat]
    omega
  have htake : ∀ l : List UInt8, l.take (min l.length ilen) = l.take ilen := by
    intro l
    by_cases hl : ilen ≤ l.length
    · rw [Nat.min_eq_right hl]
    · rw [Nat.min_eq_left (by omega), List.take_length, List.take_of_length_le (by omega)]
  cases t with
  | ipv4 =>
    simp only [create] at h
    split at h
    · cases h
    · rename_i hl
      cases h
      have hl : data.length = 4 := by omega
      have hd : toBytes 4 (ofBytes 32 data).toNat = data := by
        rw [ofBytes_toNat 32 data (by omega), ← hl, toBytes_val]
      refine ⟨fun _ => ?_, fun e => (nomatch e)⟩
      simp only [getData, dataOf, hd, htake, getPort, hport]
      exact ⟨trivial, trivial⟩
  | ipv6 =>
    simp only [create] at h
    split at h
    · cases h
    · rename_i hl
      cases h
      have hl : data.length = 16 := by omega
      have hd : toBytes 16 (ofBytes 128 data).toNat = data := by
        rw [ofBytes_toNat 128 data (by omega), ← hl, toBytes_val]
      refine ⟨fun _ => ?_, fun e => (nomatch e)⟩
      simp only [getData, dataOf, hd, htake, getPort, hport]
      exact ⟨trivial, trivial⟩
  | unix =>
    simp only [create] at h
    split at h
    · cases h
    · cases h
      refine ⟨fun e => absurd rfl e, fun _ => ?_⟩
      have hd : ∀ l : List UInt8, (∀ b ∈ l, b ≠ 0) → l.takeWhile (· ≠ 0) = l := by
        intro l
        induction l with
        | nil => intro _; rfl
        | cons x xs ih =>
          intro h
          have hx := h x (List.mem_cons_self ..)
          rw [List.takeWhile_cons]
          simp only [hx, ne_eq, not_false_eq_true, decide_true, if_true]
          rw [ih fun b hb => h b (List.mem_cons_of_mem _ hb)]
      simp only [getData, dataOf, hd data (hz rfl), htake, getPort]
      simp
  | other => simp [create] at h

/-- Whatever the address and the buffer: at most `ilen` bytes are copied, they begin the data, and the length
reported is that of all of it. -/
theorem C166_room (cur : Option Sock) (ilen : Nat) :
    (getData cur ilen).1.length ≤ ilen ∧ (getData cur ilen).1.length ≤ (getData cur ilen).2 ∧
      ((getData cur ilen).2 ≤ ilen → (getData cur ilen).1.length = (getData cur ilen).2) := by
  cases cur with
  | none => simp [getData]
  | some s => simp only [getData, List.length_take]; omega

/-- Setting a port that fits changes the port only. -/
theorem C166_set_port_partial (s s' : Sock) (port : Nat) (hp : port < 65536) (h : setPort s port = .ok s') :
    getPort (some s') = some port ∧ dataOf s'.sa = dataOf s.sa ∧ s'.len = s.len := by
  have hport : (BitVec.ofNat 16 port).toNat = port := by
    rw [BitVec.toNat_ofNat]
    omega
  obtain ⟨sa, len⟩ := s
  cases sa with
  | v4 ip p => simp only [setPort] at h; cases h; exact ⟨by simp [getPort, hport], rfl, rfl⟩
  | v6 ip p sc => simp only [setPort] at h; cases h; exact ⟨by simp [getPort, hport], rfl, rfl⟩
  | unix q => simp [setPort] at h
  | other f => simp [setPort] at h

example : (match create .ipv4 [10, 0, 0, 1] none 80 with
    | .ok s => getData (some s) 16 == ([10, 0, 0, 1], 4) && getPort (some s) == some 80
    | .error _ => false) = true := by decide +kernel

/-- Port 65616 is taken as port 80. -/
theorem C166_port_violated :
    (match create .ipv4 [10, 0, 0, 1] none 65616 with
     | .ok s => getPort (some s) == some 80
     | .error _ => false) = true := by decide +kernel

/-- Reading the data of an AX.25 address calls through NULL. -/
theorem C166_ax25_violated : netGetData none 100 = none := rfl

/-- Addresses of the same kind but of different lengths are never equal. -/
theorem C160_lengths (a b : Sock) (ports : Bool) (m : Nat) (hl : a.len ≠ b.len)
    (hk : match a.sa, b.sa with | .v4 _ _, .v4 _ _ | .v6 _ _ _, .v6 _ _ _ | .unix _, .unix _ => True | _, _ => False) :
    equal a b ports m = false := by
  obtain ⟨sa, la⟩ := a
  obtain ⟨sb, lb⟩ := b
  cases sa <;> cases sb <;> simp_all [equal]

/-- Without a slash there is no mask. -/
theorem C165_no_slash (f : Fam) (n4 : Bool) : scanMask f n4 none = .ok 0 := rfl

/-- The scope given is the scope stored, and setting the port keeps it. -/
theorem C166_scope (data : List UInt8) (scope : Option Nat) (port port' : Nat) (s : Sock) (h : create .ipv6 data scope port = .ok s) :
    (∃ ip p, s.sa = .v6 ip p (scope.getD 0)) ∧ (∀ s', setPort s port' = .ok s' → ∃ ip p, s'.sa = .v6 ip p (scope.getD 0)) := by
  simp only [create] at h
  split at h
  · cases h
  · cases h
    refine ⟨⟨_, _, rfl⟩, ?_⟩
    intro s' e
    simp only [setPort] at e
    cases e
    exact ⟨_, _, rfl⟩

/-- A path, with the zero at its end, fits into its field, and the length of the address covers it. -/
theorem C166_path (data : List UInt8) (scope : Option Nat) (port : Nat) (s : Sock)
    (h : create .unix data scope port = .ok s ∨ scanUnix data = .ok s) :
    ∃ q, s.sa = .unix q ∧ q.length + 1 ≤ pathMax ∧ unHeader + q.length + 1 ≤ s.len ∧ s.len ≤ unHeader + pathMax := by
  have htw : (data.takeWhile (· ≠ 0)).length ≤ data.length := (List.takeWhile_prefix _).length_le
  have hpm : pathMax = 108 := rfl
  rcases h with h | h
  · simp only [create] at h
    split at h
    · cases h
    · cases h
      refine ⟨_, rfl, by omega, ?_, ?_⟩
      · show unHeader + _ + 1 ≤ unHeader + pathMax; omega
      · exact Nat.le_refl _
  · simp only [scanUnix] at h
    split at h
    · cases h
    · cases h
      refine ⟨_, rfl, by omega, Nat.le_refl _, ?_⟩
      show unHeader + data.length + 1 ≤ unHeader + pathMax; omega

/-- Without `all`, the two current addresses are compared, with the ports if asked. -/
theorem C164_first (n1 n2 : List (List Sock)) (c1 c2 : Iter) (a b : Sock) (ports : Bool) (h1 : c1.curr = some a) (h2 : c2.curr = some b) :
    addrEqual n1 n2 c1 c2 ports false = some (equal a b ports 0) := by simp [addrEqual, h1, h2]

end Gensio.AddrInfo
