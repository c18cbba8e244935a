import Verif.Lemmas.CertauthRej

/-!
# The parser of the authentication filter
-/
namespace Gensio.Certauth

/-- What one round of the parser does. -/
inductive Rd
  | ub
  | stop (f : F) (r : List UInt8)
  | more (f : F) (r : List UInt8)

/-- The data of an element. -/
def st4 (C : Crypto) (f : F) (buf : List UInt8) : Rd :=
  if f.currLen - f.readBuf.length ≤ buf.length then
    if f.readBuf.length + (f.currLen - f.readBuf.length) > dataSize then .ub
    else .more (elemDone C { f with readBuf := f.readBuf ++ buf.take (f.currLen - f.readBuf.length) })
      (buf.drop (f.currLen - f.readBuf.length))
  else if f.readBuf.length + buf.length > dataSize then .ub
  else .stop { f with readBuf := f.readBuf ++ buf } []

/-- The second byte of the length. -/
def st3 (C : Crypto) (f : F) (buf : List UInt8) : Rd :=
  match buf with
  | [] => .stop f []
  | c :: buf' =>
    if f.b2 then st4 C f (c :: buf')
    else if f.currLen + c.toNat = 0 ∨ f.currLen + c.toNat > dataSize then
      .stop { f with b2 := true, currLen := f.currLen + c.toNat, pendingErr := geProtoerr } (c :: buf')
    else st4 C { f with b2 := true, currLen := f.currLen + c.toNat } buf'

/-- The first byte of the length. -/
def st2 (C : Crypto) (f : F) (buf : List UInt8) : Rd :=
  match buf with
  | [] => .stop f []
  | c :: buf' => if f.b1 then st3 C f (c :: buf') else st3 C { f with b1 := true, currLen := c.toNat * 256 } buf'

/-- A round. -/
def st1 (C : Crypto) (f : F) (buf : List UInt8) : Rd :=
  if f.currElem = 0 then
    match buf with
    | [] => .ub
    | c :: buf' =>
      if c.toNat = 200 then .stop { f with currElem := 200, currMsg := 0, gotMsg := true } buf'
      else if c.toNat > 112 ∨ c.toNat < 100 then .stop { f with currElem := c.toNat, pendingErr := geProtoerr } buf'
      else st2 C { f with currElem := c.toNat } buf'
  else st2 C f buf

/-- The rounds. -/
def Rd.go (k : F → List UInt8 → Option (F × List UInt8)) : Rd → Option (F × List UInt8)
  | .ub => none
  | .stop f r => some (f, r)
  | .more f r => k f r

theorem parse_round (C : Crypto) (n : Nat) (f : F) (buf : List UInt8) :
    parseElems C (n + 1) f buf = (st1 C f buf).go (parseElems C n) := by
  have h4 : ∀ (f : F) (buf : List UInt8),
      (if f.currLen - f.readBuf.length ≤ buf.length then
        if f.readBuf.length + (f.currLen - f.readBuf.length) > dataSize then none
        else parseElems C n (elemDone C { f with readBuf := f.readBuf ++ buf.take (f.currLen - f.readBuf.length) })
          (buf.drop (f.currLen - f.readBuf.length))
      else if f.readBuf.length + buf.length > dataSize then none
      else some ({ f with readBuf := f.readBuf ++ buf }, [])) = (st4 C f buf).go (parseElems C n) := by
    intro f buf
    unfold st4
    repeat' split
    all_goals rfl
  have h2 : ∀ (f : F) (buf : List UInt8), (match buf with
      | [] => some (f, [])
      | c :: buf' =>
        let x : F × List UInt8 := if f.b1 then (f, buf) else ({ f with b1 := true, currLen := c.toNat * 256 }, buf')
        match x.2 with
        | [] => some (x.1, [])
        | c :: buf' =>
          let y : F × List UInt8 := if x.1.b2 then (x.1, x.2) else ({ x.1 with b2 := true, currLen := x.1.currLen + c.toNat }, buf')
          if !x.1.b2 && (y.1.currLen = 0 || y.1.currLen > dataSize) then some ({ y.1 with pendingErr := geProtoerr }, x.2)
          else
            let f := y.1
            let left := f.currLen - f.readBuf.length
            if left ≤ y.2.length then
              if f.readBuf.length + left > dataSize then none
              else parseElems C n (elemDone C { f with readBuf := f.readBuf ++ y.2.take left }) (y.2.drop left)
            else if f.readBuf.length + y.2.length > dataSize then none
            else some ({ f with readBuf := f.readBuf ++ y.2 }, [])) = (st2 C f buf).go (parseElems C n) := by
    intro f buf
    unfold st2
    cases buf with
    | nil => rfl
    | cons c buf' =>
      dsimp only
      have key : ∀ x : F × List UInt8, (match x.2 with
        | [] => some (x.1, [])
        | c :: buf' =>
          let y : F × List UInt8 := if x.1.b2 then (x.1, x.2) else ({ x.1 with b2 := true, currLen := x.1.currLen + c.toNat }, buf')
          if !x.1.b2 && (y.1.currLen = 0 || y.1.currLen > dataSize) then some ({ y.1 with pendingErr := geProtoerr }, x.2)
          else
            let f := y.1
            let left := f.currLen - f.readBuf.length
            if left ≤ y.2.length then
              if f.readBuf.length + left > dataSize then none
              else parseElems C n (elemDone C { f with readBuf := f.readBuf ++ y.2.take left }) (y.2.drop left)
            else if f.readBuf.length + y.2.length > dataSize then none
            else some ({ f with readBuf := f.readBuf ++ y.2 }, [])) = (st3 C x.1 x.2).go (parseElems C n) := by
        rintro ⟨f, b⟩
        dsimp only
        unfold st3
        cases b with
        | nil => rfl
        | cons c b' =>
          dsimp only
          by_cases hb : f.b2 = true
          · rw [if_pos hb, if_pos hb, if_neg (by simp [hb])]
            exact h4 f (c :: b')
          · rw [if_neg hb, if_neg hb]
            have hb : f.b2 = false := by simpa using hb
            dsimp only
            by_cases hl : f.currLen + c.toNat = 0 ∨ f.currLen + c.toNat > dataSize
            · rw [if_pos hl, if_pos (by simpa [hb] using hl)]; rfl
            · rw [if_neg hl, if_neg (by simpa [hb] using hl)]
              exact h4 { f with b2 := true, currLen := f.currLen + c.toNat } b'
      refine (key _).trans ?_
      split <;> rfl
  unfold st1
  conv => lhs; unfold parseElems
  by_cases h : f.currElem = 0
  · rw [if_pos h, if_pos h]
    cases buf with
    | nil => rfl
    | cons c buf' =>
      dsimp only
      by_cases h1 : c.toNat = 200
      · rw [if_pos h1, if_pos h1]; rfl
      · rw [if_neg h1, if_neg h1]
        by_cases h3 : c.toNat > 112 ∨ c.toNat < 100
        · rw [if_pos h3, if_pos h3]; rfl
        · rw [if_neg h3, if_neg h3]
          exact h2 _ _
  · rw [if_neg h, if_neg h]
    exact h2 _ _

/-! ## Rounds -/

theorem st4_more {C : Crypto} {f g : F} {a r : List UInt8} (h : st4 C f a = .more g r) (p : f.readBuf.length < f.currLen) :
    r.length < a.length ∧ PS g ∧ g.currElem = 0 := by
  unfold st4 at h
  split at h
  · split at h
    · cases h
    · simp only [Rd.more.injEq] at h
      rw [← h.1, ← h.2]
      refine ⟨?_, PS_elemDone _ _, rfl⟩
      rw [List.length_drop]
      omega
  · split at h <;> cases h

/-- A round that goes on. -/
theorem st1_more {C : Crypto} {f g : F} {a r : List UInt8} (h : st1 C f a = .more g r) (p : PS f) :
    r.length < a.length ∧ PS g ∧ g.currElem = 0 := by
  have h3 : ∀ (f : F) (a : List UInt8), st3 C f a = .more g r → PS f → f.b1 = true → r.length < a.length ∧ PS g ∧ g.currElem = 0 := by
    intro f a h p hb1
    unfold st3 at h
    split at h
    · cases h
    · split at h
      · rename_i hb
        exact st4_more h (p.1 hb).2.2.2
      · rename_i hb
        split at h
        · cases h
        · rename_i hl
          have := st4_more h (by
            have := p.2 (by simpa using hb)
            dsimp only
            rw [this, List.length_nil]
            omega)
          exact ⟨by rw [List.length_cons]; omega, this.2⟩
  have h2 : ∀ (f : F) (a : List UInt8), st2 C f a = .more g r → PS f → r.length < a.length ∧ PS g ∧ g.currElem = 0 := by
    intro f a h p
    unfold st2 at h
    split at h
    · cases h
    · split at h
      · exact h3 _ _ h p (by assumption)
      · rename_i hb
        have := h3 _ _ h ⟨fun hb2 => absurd (p.1 hb2).1 hb, p.2⟩ rfl
        exact ⟨by rw [List.length_cons]; omega, this.2⟩
  unfold st1 at h
  split at h
  · split at h
    · cases h
    · split at h
      · cases h
      · split at h
        · cases h
        · have := h2 _ _ h p
          exact ⟨by rw [List.length_cons]; omega, this.2⟩
  · exact h2 _ _ h p

/-- A round that goes wrong. -/
theorem st1_ub {C : Crypto} {f : F} {a : List UInt8} (p : PS f) : st1 C f a = .ub ↔ f.currElem = 0 ∧ a = [] := by
  have h4 : ∀ (f : F) (a : List UInt8), f.readBuf.length < f.currLen → f.currLen ≤ dataSize → st4 C f a ≠ .ub := by
    intro f a h1 h2
    unfold st4
    split
    · rw [if_neg (by omega)]; simp
    · rw [if_neg (by omega)]; simp
  have h3 : ∀ (f : F) (a : List UInt8), PS f → st3 C f a ≠ .ub := by
    intro f a p
    unfold st3
    split
    · simp
    · split
      · rename_i hb
        exact h4 _ _ (p.1 hb).2.2.2 (p.1 hb).2.2.1
      · rename_i hb
        split
        · simp
        · rename_i hl
          have := p.2 (by simpa using hb)
          exact h4 _ _ (by dsimp only; rw [this, List.length_nil]; omega) (by dsimp only; omega)
  have h2 : ∀ (f : F) (a : List UInt8), PS f → st2 C f a ≠ .ub := by
    intro f a p
    unfold st2
    split
    · simp
    · split
      · exact h3 _ _ p
      · rename_i hb
        exact h3 _ _ ⟨fun hb2 => absurd (p.1 hb2).1 hb, p.2⟩
  unfold st1
  split
  · split
    · simp [*]
    · split
      · simp
      · split
        · simp
        · simp only [reduceCtorEq, and_false, iff_false]
          exact h2 _ _ p
  · rename_i hc
    exact ⟨fun h => absurd h (h2 _ _ p), fun h => absurd h.1 hc⟩

theorem st4_append {C : Crypto} {f g : F} {a r : List UInt8} (b : List UInt8) (h : st4 C f a = .more g r) :
    st4 C f (a ++ b) = .more g (r ++ b) := by
  unfold st4 at h ⊢
  split at h
  · rename_i hl
    split at h
    · cases h
    · rename_i hd
      simp only [Rd.more.injEq] at h
      rw [if_pos (by rw [List.length_append]; omega), if_neg hd, List.take_append_of_le_length hl, List.drop_append_of_le_length hl,
        h.1, h.2]
  · split at h <;> cases h

/-- More data after a round that goes on. -/
theorem st1_append {C : Crypto} {f g : F} {a r : List UInt8} (b : List UInt8) (h : st1 C f a = .more g r) :
    st1 C f (a ++ b) = .more g (r ++ b) := by
  have h3 : ∀ (f : F) (a : List UInt8), st3 C f a = .more g r → st3 C f (a ++ b) = .more g (r ++ b) := by
    intro f a h
    unfold st3 at h
    split at h
    · cases h
    · unfold st3
      dsimp only [List.cons_append]
      split at h
      · rename_i hb
        rw [if_pos hb]
        exact st4_append b h
      · rename_i hb
        rw [if_neg hb]
        split at h
        · cases h
        · rename_i hl
          rw [if_neg hl]
          exact st4_append b h
  have h2 : ∀ (f : F) (a : List UInt8), st2 C f a = .more g r → st2 C f (a ++ b) = .more g (r ++ b) := by
    intro f a h
    unfold st2 at h
    split at h
    · cases h
    · unfold st2
      dsimp only [List.cons_append]
      split at h
      · rename_i hb
        rw [if_pos hb]
        exact h3 _ _ h
      · rename_i hb
        rw [if_neg hb]
        exact h3 _ _ h
  unfold st1 at h ⊢
  split at h
  · rename_i he
    rw [if_pos he]
    split at h
    · cases h
    · dsimp only [List.cons_append]
      split at h
      · cases h
      · rename_i h5
        rw [if_neg h5]
        split at h
        · cases h
        · rename_i h6
          rw [if_neg h6]
          exact h2 _ _ h
  · rename_i he
    rw [if_neg he]
    exact h2 _ _ h

/-- What a round that stops for lack of data has done need not be done again. -/
theorem st1_resume {C : Crypto} {f g : F} {a : List UInt8} (b : List UInt8) (hb : b ≠ []) (h : st1 C f a = .stop g [])
    (p : PS f) (he : g.pendingErr = 0) (h2 : g.currElem ≠ 200) : st1 C f (a ++ b) = st1 C g b := by
  have s4 : ∀ (f : F) (a : List UInt8), st4 C f a = .stop g [] → f.currElem ≠ 0 → f.b1 = true → f.b2 = true →
      f.readBuf.length < f.currLen → f.currLen ≤ dataSize → st4 C f (a ++ b) = st1 C g b := by
    intro f a h ce hb1 hb2 hl hm
    unfold st4 at h
    split at h
    · split at h <;> cases h
    · rename_i hn
      rw [if_neg (by omega)] at h
      simp only [Rd.stop.injEq, and_true] at h
      subst h
      obtain ⟨c, b', rfl⟩ := List.exists_cons_of_ne_nil hb
      unfold st1
      rw [if_neg ce]
      unfold st2 st3
      dsimp only
      rw [if_pos hb1, if_pos hb2]
      unfold st4
      dsimp only
      have e1 : f.currLen - (f.readBuf ++ a).length = f.currLen - f.readBuf.length - a.length := by
        rw [List.length_append]; omega
      rw [e1]
      by_cases h5 : f.currLen - f.readBuf.length ≤ (a ++ c :: b').length
      · have h6 : f.currLen - f.readBuf.length - a.length ≤ (c :: b').length := by rw [List.length_append] at h5; omega
        have h7 : f.readBuf.length + (f.currLen - f.readBuf.length) = (f.readBuf ++ a).length + (f.currLen - f.readBuf.length - a.length) := by
          rw [List.length_append]; omega
        rw [if_pos h5, if_pos h6, h7]
        have h8 : (a ++ c :: b').take (f.currLen - f.readBuf.length) = a ++ (c :: b').take (f.currLen - f.readBuf.length - a.length) := by
          rw [List.take_append, List.take_of_length_le (by omega)]
        have h9 : (a ++ c :: b').drop (f.currLen - f.readBuf.length) = (c :: b').drop (f.currLen - f.readBuf.length - a.length) := by
          rw [List.drop_append, List.drop_of_length_le (by omega), List.nil_append]
        rw [h8, h9, List.append_assoc]
      · have h6 : ¬(f.currLen - f.readBuf.length - a.length ≤ (c :: b').length) := by rw [List.length_append] at h5; omega
        rw [if_neg h5, if_neg h6, List.append_assoc]
        have h7 : f.readBuf.length + (a ++ c :: b').length = (f.readBuf ++ a).length + (c :: b').length := by
          simp only [List.length_append]; omega
        rw [h7]
  have s3 : ∀ (f : F) (a : List UInt8), st3 C f a = .stop g [] → f.currElem ≠ 0 → f.b1 = true → PS f → st3 C f (a ++ b) = st1 C g b := by
    intro f a h ce hb1 p
    unfold st3 at h
    split at h
    · simp only [Rd.stop.injEq, and_true] at h
      subst h
      obtain ⟨c, b', rfl⟩ := List.exists_cons_of_ne_nil hb
      unfold st1
      rw [if_neg ce]
      unfold st2
      dsimp only
      rw [if_pos hb1]
      rfl
    · unfold st3
      dsimp only [List.cons_append]
      split at h
      · rename_i hb2
        rw [if_pos hb2]
        exact s4 _ _ h ce hb1 hb2 (p.1 hb2).2.2.2 (p.1 hb2).2.2.1
      · rename_i hb2
        rw [if_neg hb2]
        split at h
        · simp at h
        · rename_i hl
          rw [if_neg hl]
          have := p.2 (by simpa using hb2)
          exact s4 _ _ h ce hb1 rfl (by dsimp only; rw [this, List.length_nil]; omega) (by dsimp only; omega)
  have s2 : ∀ (f : F) (a : List UInt8), st2 C f a = .stop g [] → f.currElem ≠ 0 → PS f → st2 C f (a ++ b) = st1 C g b := by
    intro f a h ce p
    unfold st2 at h
    split at h
    · simp only [Rd.stop.injEq, and_true] at h
      subst h
      unfold st1
      rw [if_neg ce]
      rfl
    · unfold st2
      dsimp only [List.cons_append]
      split at h
      · rename_i hb1
        rw [if_pos hb1]
        exact s3 _ _ h ce hb1 p
      · rename_i hb1
        rw [if_neg hb1]
        exact s3 _ _ h ce rfl ⟨fun hb2 => absurd (p.1 hb2).1 hb1, p.2⟩
  unfold st1 at h
  conv => lhs; unfold st1
  split at h
  · rename_i ce
    rw [if_pos ce]
    split at h
    · cases h
    · dsimp only [List.cons_append]
      split at h
      · simp only [Rd.stop.injEq] at h
        rw [← h.1] at h2
        exact absurd rfl h2
      · rename_i h5
        rw [if_neg h5]
        split at h
        · simp only [Rd.stop.injEq] at h
          rw [← h.1] at he
          exact absurd he (show ¬geProtoerr = 0 by decide)
        · rename_i h6
          rw [if_neg h6]
          refine s2 _ _ h ?_ p
          dsimp only
          omega
  · rename_i ce
    rw [if_neg ce]
    exact s2 _ _ h ce p

/-! ## All rounds -/

/-- The number of rounds that are left does not matter. -/
theorem parse_fuel (C : Crypto) : ∀ (l n m : Nat) (f : F) (buf : List UInt8), buf.length ≤ l → l < n → l < m → PS f →
    parseElems C n f buf = parseElems C m f buf
  | l, n, m, f, buf, hl, hn, hm, p => by
    obtain ⟨n, rfl⟩ : ∃ k, n = k + 1 := ⟨n - 1, by omega⟩
    obtain ⟨m, rfl⟩ : ∃ k, m = k + 1 := ⟨m - 1, by omega⟩
    rw [parse_round, parse_round]
    cases hr : st1 C f buf with
    | ub => rfl
    | stop g r => rfl
    | more g r =>
      have := st1_more hr p
      match l, hl, hn, hm with
      | 0, hl, _, _ => omega
      | l + 1, hl, hn, hm => exact parse_fuel C l n m g r (by omega) (by omega) (by omega) this.2.1

/-- Data in two parts. -/
theorem parse_append {C : Crypto} (b : List UInt8) (hb : b ≠ []) : ∀ (l n m : Nat) (f g : F) (a : List UInt8), a.length ≤ l →
    l + b.length < n → l < m → PS f → parseElems C m f a = some (g, []) → g.pendingErr = 0 → g.currElem ≠ 200 →
    parseElems C n f (a ++ b) = parseElems C (b.length + 2) g b ∧ PS g
  | l, n, m, f, g, a, hl, hn, hm, p, h, he, h2 => by
    obtain ⟨n, rfl⟩ : ∃ k, n = k + 1 := ⟨n - 1, by omega⟩
    obtain ⟨m, rfl⟩ : ∃ k, m = k + 1 := ⟨m - 1, by omega⟩
    rw [parse_round] at h
    cases hr : st1 C f a with
    | ub => rw [hr] at h; cases h
    | stop g' r =>
      rw [hr] at h
      simp only [Rd.go, Option.some.injEq, Prod.mk.injEq] at h
      obtain ⟨rfl, rfl⟩ := h
      have pg : PS g' := by
        have := (parse_ind (C := C) (P := fun _ => True) (fun _ _ _ _ => trivial) (fun _ _ _ => trivial) 1 f a g' []
          (by rw [parse_round, hr]; rfl) p trivial).2 he
        exact this
      refine ⟨?_, pg⟩
      rw [parse_round, st1_resume b hb hr p he h2, ← parse_round]
      exact parse_fuel C b.length _ _ _ _ (by omega) (by omega) (by omega) pg
    | more g' r =>
      have h1 := st1_more hr p
      rw [hr] at h
      rw [parse_round, st1_append b hr]
      match l, hl, hn, hm with
      | 0, hl, _, _ => omega
      | l + 1, hl, hn, hm => exact parse_append b hb l n m g' g r (by omega) (by omega) (by omega) h1.2.1 h he h2

/-- What goes wrong is only that the data ends with an element. -/
theorem parse_none {C : Crypto} : ∀ (l n : Nat) (f : F) (a : List UInt8), a.length ≤ l → l < n → PS f → parseElems C n f a = none →
    ∀ m, l + 1 < m → ∀ b, b ≠ [] → parseElems C m f (a ++ b) ≠ none ∨ ∃ k g, parseElems C m f (a ++ b) = parseElems C k g b ∧ PS g ∧
      g.currElem = 0 ∧ m - l ≤ k + 1
  | l, n, f, a, hl, hn, p, h, m, hm, b, hb => by
    obtain ⟨n, rfl⟩ : ∃ k, n = k + 1 := ⟨n - 1, by omega⟩
    obtain ⟨m, rfl⟩ : ∃ k, m = k + 1 := ⟨m - 1, by omega⟩
    rw [parse_round] at h
    cases hr : st1 C f a with
    | ub =>
      obtain ⟨e1, rfl⟩ := (st1_ub p).1 hr
      exact .inr ⟨m + 1, f, rfl, p, e1, by omega⟩
    | stop g' r => rw [hr] at h; cases h
    | more g' r =>
      have h1 := st1_more hr p
      rw [hr] at h
      rw [parse_round, st1_append b hr]
      match l, hl, hn, hm with
      | 0, hl, _, _ => omega
      | l + 1, hl, hn, hm =>
        rcases parse_none l n g' r (by omega) (by omega) h1.2.1 h m (by omega) b hb with h2 | ⟨k, g, h2, h3, h4, h5⟩
        · exact .inl h2
        · exact .inr ⟨k, g, h2, h3, h4, by omega⟩

end Gensio.Certauth
