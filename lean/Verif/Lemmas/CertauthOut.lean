import Verif.Lemmas.CertauthParse

/-!
# Input of whole messages, and output of the authentication filter
-/
namespace Gensio.Certauth

/-! ## Elements -/

/-- An element as it is sent. -/
def enc (e : Nat × List UInt8) : List UInt8 := UInt8.ofNat e.1 :: (u16 e.2.length ++ e.2)

/-- An element that is known and fits. -/
def Wf (e : Nat × List UInt8) : Prop := 100 ≤ e.1 ∧ e.1 ≤ 112 ∧ 0 < e.2.length ∧ e.2.length ≤ 2048

/-- Elements one after the other. -/
def encs (es : List (Nat × List UInt8)) : List UInt8 := es.flatMap enc

/-- An element is there. -/
def put (C : Crypto) (f : F) (e : Nat × List UInt8) : F :=
  elemDone C { f with currElem := e.1, b1 := true, currLen := e.2.length, b2 := true, readBuf := e.2 }

/-- The parser is between elements. -/
def Idle (f : F) : Prop := f.currElem = 0 ∧ f.b1 = false ∧ f.b2 = false ∧ f.readBuf = []

theorem Idle_put (C : Crypto) (f : F) (e : Nat × List UInt8) : Idle (put C f e) := ⟨rfl, rfl, rfl, rfl⟩

theorem st1_enc {C : Crypto} {f : F} {e : Nat × List UInt8} (rest : List UInt8) (hi : Idle f) (hw : Wf e) :
    st1 C f (enc e ++ rest) = .more (put C f e) rest := by
  obtain ⟨t, d⟩ := e
  obtain ⟨w1, w2, w3, w4⟩ := hw
  obtain ⟨i1, i2, i3, i4⟩ := hi
  dsimp only at w1 w2 w3 w4
  have ht : (UInt8.ofNat t).toNat = t := by rw [UInt8.toNat_ofNat']; omega
  have e1 : (UInt8.ofNat (d.length / 256 % 256)).toNat * 256 + (UInt8.ofNat (d.length % 256)).toNat = d.length := by
    rw [UInt8.toNat_ofNat', UInt8.toNat_ofNat']; omega
  unfold st1
  rw [if_pos i1]
  simp only [enc, u16, List.cons_append, List.nil_append]
  rw [if_neg (by omega), if_neg (by omega), ht]
  unfold st2
  simp only [i2]
  rw [if_neg (by simp)]
  unfold st3
  simp only [i3]
  rw [if_neg (by simp), e1, if_neg (by simp only [dataSize]; omega)]
  unfold st4
  simp only [i4, List.length_nil, Nat.sub_zero, List.nil_append, List.length_append, Nat.zero_add]
  rw [if_pos (by omega), if_neg (by simp only [dataSize]; omega), List.take_left, List.drop_left]
  rfl

theorem parse_encs {C : Crypto} (rest : List UInt8) : ∀ (es : List (Nat × List UInt8)) (n : Nat) (f : F), (∀ e ∈ es, Wf e) → Idle f →
    parseElems C (n + es.length) f (encs es ++ rest) = parseElems C n (es.foldl (put C) f) rest
  | [], _, _, _, _ => rfl
  | e :: es, n, f, hw, hi => by
    have h1 : encs (e :: es) ++ rest = enc e ++ (encs es ++ rest) := by simp [encs]
    rw [h1, show n + (e :: es).length = (n + es.length) + 1 from rfl, parse_round, st1_enc _ hi (hw e (.head _))]
    exact parse_encs rest es n _ (fun x hx => hw x (.tail _ hx)) (Idle_put C f e)

theorem Idle_foldl (C : Crypto) (es : List (Nat × List UInt8)) (f : F) (h : Idle f) : Idle (es.foldl (put C) f) := by
  induction es generalizing f with
  | nil => exact h
  | cons e es ih => exact ih _ (Idle_put C f e)

theorem enc_len (e : Nat × List UInt8) : (enc e).length = e.2.length + 3 := by
  simp only [enc, u16, List.length_cons, List.length_append, List.length_nil]
  omega

theorem encs_len (es : List (Nat × List UInt8)) : es.length ≤ (encs es).length := by
  induction es with
  | nil => simp
  | cons e es ih =>
    simp only [encs, List.flatMap_cons, List.length_append, List.length_cons, enc_len] at ih ⊢
    omega

/-- A message that starts is for this state. -/
def Starts (f : F) (c : Nat) : Prop :=
  f.state ≠ 108 ∧ f.pendingErr = 0 ∧ f.currMsg = 0 ∧ c ≤ 6 ∧ (c = f.state ∨ (f.isClient = true ∧ c = 6))

/-- The filter after the number of a message. -/
def start (f : F) (c : Nat) : F :=
  { f with currMsg := c, currElem := 0, b1 := false, b2 := false, readBuf := [], state := if f.isClient = true ∧ c = 6 then 6 else f.state }

/-! ## Input leaves the output alone -/

/-- The part for the output. -/
def op (f : F) : List UInt8 × Nat := (f.writeBuf, f.writePos)

theorem op_check (C : Crypto) (f : F) : op (checkChallenge C f) = op f := by
  unfold checkChallenge
  split
  · rfl
  · dsimp only
    split <;> rfl

theorem op_cert (C : Crypto) (f : F) : op (getCert C f) = op f := by
  unfold getCert
  repeat' (first | rfl | split)

theorem op_handle (C : Crypto) (f : F) : op (handleElem C f) = op f := by
  unfold handleElem
  dsimp only
  repeat' (first | rfl | exact op_check C f | exact op_cert C f | split)

theorem op_elemDone (C : Crypto) (f : F) : op (elemDone C f) = op f :=
  (op_handle C { f with tr := .elem f.state f.currElem f.readBuf :: f.tr }).trans rfl

/-- The filter that a round leaves. -/
def Rd.f : Rd → Option F
  | .ub => none
  | .stop f _ => some f
  | .more f _ => some f

theorem op_st1 {C : Crypto} {f g : F} {a : List UInt8} (h : (st1 C f a).f = some g) : op g = op f := by
  have h4 : ∀ (f : F) (a : List UInt8), (st4 C f a).f = some g → op g = op f := by
    intro f a h
    unfold st4 at h
    split at h
    · split at h
      · cases h
      · simp only [Rd.f, Option.some.injEq] at h
        rw [← h, op_elemDone]; rfl
    · split at h
      · cases h
      · simp only [Rd.f, Option.some.injEq] at h
        rw [← h]; rfl
  have h3 : ∀ (f : F) (a : List UInt8), (st3 C f a).f = some g → op g = op f := by
    intro f a h
    unfold st3 at h
    split at h
    · simp only [Rd.f, Option.some.injEq] at h; rw [← h]
    · split at h
      · exact (h4 _ _ h).trans rfl
      · split at h
        · simp only [Rd.f, Option.some.injEq] at h; rw [← h]; rfl
        · exact (h4 _ _ h).trans rfl
  have h2 : ∀ (f : F) (a : List UInt8), (st2 C f a).f = some g → op g = op f := by
    intro f a h
    unfold st2 at h
    split at h
    · simp only [Rd.f, Option.some.injEq] at h; rw [← h]
    · split at h
      · exact (h3 _ _ h).trans rfl
      · exact (h3 _ _ h).trans rfl
  unfold st1 at h
  split at h
  · split at h
    · cases h
    · split at h
      · simp only [Rd.f, Option.some.injEq] at h; rw [← h]; rfl
      · split at h
        · simp only [Rd.f, Option.some.injEq] at h; rw [← h]; rfl
        · exact (h2 _ _ h).trans rfl
  · exact (h2 _ _ h).trans rfl

theorem op_parse {C : Crypto} : ∀ (n : Nat) (f g : F) (a r : List UInt8), parseElems C n f a = some (g, r) → op g = op f
  | 0, _, _, _, _, h => by simp [parseElems] at h
  | n + 1, f, g, a, r, h => by
    rw [parse_round] at h
    cases hr : st1 C f a with
    | ub => rw [hr] at h; cases h
    | stop g' r' =>
      rw [hr] at h
      simp only [Rd.go, Option.some.injEq, Prod.mk.injEq] at h
      rw [← h.1]
      exact op_st1 (by rw [hr]; rfl)
    | more g' r' =>
      rw [hr] at h
      exact (op_parse n g' g r' r h).trans (op_st1 (by rw [hr]; rfl))

theorem op_recv {C : Crypto} {f : F} {a : List UInt8} {x : F × List UInt8 × Nat} (h : llWrite C f a = some x) : op x.1 = op f := by
  unfold llWrite at h
  split at h
  · simp only [Option.some.injEq] at h; subst h; rfl
  · rename_i c a'
    split at h
    · simp only [Option.some.injEq] at h; subst h; rfl
    · split at h
      · simp only [Option.some.injEq] at h; subst h; rfl
      · dsimp only at h
        generalize hy : (if f.currMsg = 0 then _ else (false, f, c :: a') : Bool × F × List UInt8) = y at h
        have py : op y.2.1 = op f := by
          rw [← hy]
          repeat' split
          all_goals rfl
        split at h
        · simp only [Option.some.injEq] at h; subst h; exact py
        · obtain ⟨z, hz, e⟩ := Option.map_eq_some_iff.1 h
          subst e
          exact (op_parse _ _ _ _ _ hz).trans py

/-! ## A message in two parts -/

/-- The end of a message is only seen at the end. -/
theorem st1_end {C : Crypto} {f g : F} {a r : List UInt8} (h : st1 C f a = .stop g r) (he : f.currElem ≠ 200) (hg : g.currElem = 200) :
    g.currMsg = 0 := by
  have h4 : ∀ (f : F) (a : List UInt8), st4 C f a = .stop g r → g.currElem = f.currElem := by
    intro f a h
    unfold st4 at h
    split at h
    · split at h <;> cases h
    · split at h
      · cases h
      · simp only [Rd.stop.injEq] at h; rw [← h.1]
  have h3 : ∀ (f : F) (a : List UInt8), st3 C f a = .stop g r → g.currElem = f.currElem := by
    intro f a h
    unfold st3 at h
    split at h
    · simp only [Rd.stop.injEq] at h; rw [← h.1]
    · split at h
      · exact (h4 _ _ h).trans rfl
      · split at h
        · simp only [Rd.stop.injEq] at h; rw [← h.1]
        · exact (h4 _ _ h).trans rfl
  have h2 : ∀ (f : F) (a : List UInt8), st2 C f a = .stop g r → g.currElem = f.currElem := by
    intro f a h
    unfold st2 at h
    split at h
    · simp only [Rd.stop.injEq] at h; rw [← h.1]
    · split at h
      · exact (h3 _ _ h).trans rfl
      · exact (h3 _ _ h).trans rfl
  unfold st1 at h
  split at h
  · split at h
    · cases h
    · split at h
      · simp only [Rd.stop.injEq] at h; rw [← h.1]
      · rename_i h5
        split at h
        · simp only [Rd.stop.injEq] at h
          rw [← h.1] at hg
          exact absurd hg h5
        · have := h2 _ _ h
          exact absurd (this.symm.trans hg) h5
  · exact absurd ((h2 _ _ h).symm.trans hg) he

theorem parse_end {C : Crypto} : ∀ (n : Nat) (f g : F) (a r : List UInt8), parseElems C n f a = some (g, r) → f.currElem ≠ 200 → PS f →
    g.currElem = 200 → g.currMsg = 0
  | 0, _, _, _, _, h, _, _, _ => by simp [parseElems] at h
  | n + 1, f, g, a, r, h, he, p, hg => by
    rw [parse_round] at h
    cases hr : st1 C f a with
    | ub => rw [hr] at h; cases h
    | stop g' r' =>
      rw [hr] at h
      simp only [Rd.go, Option.some.injEq, Prod.mk.injEq] at h
      obtain ⟨rfl, rfl⟩ := h
      exact st1_end hr he hg
    | more g' r' =>
      have h1 := st1_more hr p
      rw [hr] at h
      exact parse_end n g' g r' r h (by rw [h1.2.2]; decide) h1.2.1 hg

/-- What holds of the parser between calls. -/
def PI (f : F) : Prop := f.pendingErr = 0 → PS f ∧ (f.currMsg ≠ 0 → f.currElem ≠ 200)

/-- The number of the message, by hand. -/
def head (f : F) (c : UInt8) (buf' : List UInt8) : Bool × F × List UInt8 :=
  if f.currMsg = 0 then
    let f := { f with currMsg := c.toNat }
    if c.toNat > 6 then (true, { f with pendingErr := geProtoerr }, buf')
    else
      let f := { f with currElem := 0, b1 := false, b2 := false, readBuf := [] }
      if f.isClient && c.toNat = stServerDone then (false, { f with state := stServerDone }, buf')
      else if c.toNat ≠ f.state then (true, { f with pendingErr := geProtoerr }, buf')
      else (false, f, buf')
  else (false, f, c :: buf')

theorem llWrite_eq {C : Crypto} {f : F} {c : UInt8} {b : List UInt8} (h1 : f.state ≠ 108) (h2 : f.pendingErr = 0) :
    llWrite C f (c :: b) = if (head f c b).1 || (head f c b).2.2.isEmpty then some ((head f c b).2.1, (head f c b).2.2, (head f c b).2.1.pendingErr)
      else (parseElems C ((head f c b).2.2.length + 2) (head f c b).2.1 (head f c b).2.2).map fun y => (y.1, y.2, y.1.pendingErr) := by
  unfold llWrite
  dsimp only
  rw [if_neg (by simpa [stPass] using h1), if_neg (by simpa using h2)]
  rfl

theorem llWrite_start {C : Crypto} {f : F} {c : UInt8} {d : List UInt8} (h : Starts f c.toNat) (hd : d ≠ []) :
    llWrite C f (c :: d) = (parseElems C (d.length + 2) (start f c.toNat) d).map fun y => (y.1, y.2, y.1.pendingErr) := by
  obtain ⟨h1, h2, h3, h4, h5⟩ := h
  have hd' : d.isEmpty = false := by cases d <;> simp_all
  have hh : head f c d = (false, start f c.toNat, d) := by
    unfold head start
    rw [if_pos h3]
    dsimp only
    rw [if_neg (by omega)]
    by_cases hc : f.isClient = true ∧ c.toNat = 6
    · rw [if_pos (by rw [Bool.and_eq_true]; exact ⟨hc.1, decide_eq_true hc.2⟩), if_pos hc]; rfl
    · rw [if_neg (by rw [Bool.and_eq_true]; exact fun h => hc ⟨h.1, of_decide_eq_true h.2⟩), if_neg hc, if_neg (by
        rcases h5 with h5 | h5
        · simpa using h5
        · exact absurd h5 hc)]
  rw [llWrite_eq h1 h2, hh]
  simp only [hd', Bool.or_self, Bool.false_eq_true, if_false]

theorem head_PS {f : F} {c : UInt8} {b : List UInt8} (p : PI f) (h : f.pendingErr = 0) (hs : f.state ≠ 108) :
    PS (head f c b).2.1 ∧ ((head f c b).1 = false → (head f c b).2.1.currElem ≠ 200 ∧ (head f c b).2.1.pendingErr = 0 ∧ (head f c b).2.1.state ≠ 108) ∧
    ((head f c b).1 = true → (head f c b).2.1.pendingErr ≠ 0) := by
  obtain ⟨p1, p2⟩ := p h
  have idle : ∀ g : F, g.b2 = false → g.readBuf = [] → PS g := fun g h1 h2 => ⟨(fun h => absurd (h1.symm.trans h) (by decide)), fun _ => h2⟩
  unfold head
  split
  · dsimp only
    split
    · exact ⟨p1, by simp, fun _ => by simp [geProtoerr]⟩
    · split
      · exact ⟨idle _ rfl rfl, fun _ => ⟨by simp, h, by simp [stServerDone]⟩, by simp⟩
      · split
        · exact ⟨idle _ rfl rfl, by simp, fun _ => by simp [geProtoerr]⟩
        · exact ⟨idle _ rfl rfl, fun _ => ⟨by simp, h, hs⟩, by simp⟩
  · rename_i hm
    exact ⟨p1, fun _ => ⟨p2 hm, h, hs⟩, by simp⟩

/-- Data in two parts, if the first does not end the message or an element. -/
theorem llWrite_append {C : Crypto} {f g : F} {a b : List UInt8} (p : PI f) (h : llWrite C f a = some (g, [], 0)) (hm : g.currMsg ≠ 0) :
    llWrite C f (a ++ b) = llWrite C g b := by
  cases b with
  | nil => rw [List.append_nil, h]; rfl
  | cons cb b =>
    cases a with
    | nil =>
      have : f = g := by simpa [llWrite] using h
      rw [this]; rfl
    | cons c a =>
      by_cases hs : f.state = 108
      · have : f = g := by simpa [llWrite, hs, stPass] using h
        subst this
        simp [llWrite, hs, stPass]
      · by_cases he : f.pendingErr = 0
        · rw [llWrite_eq hs he] at h
          obtain ⟨q1, q2, q3⟩ := head_PS (c := c) (b := a) p he hs
          by_cases hh : (head f c a).1 = true
          · rw [hh] at h
            simp only [Bool.true_or, if_true, Option.some.injEq, Prod.mk.injEq] at h
            exact absurd h.2.2 (q3 hh)
          · have hh : (head f c a).1 = false := by simpa using hh
            obtain ⟨r1, r2, r3⟩ := q2 hh
            rw [List.cons_append, llWrite_eq hs he]
            have hy : (head f c (a ++ cb :: b)) = ((head f c a).1, (head f c a).2.1, (head f c a).2.2 ++ cb :: b) := by
              unfold head
              dsimp only
              repeat' (first | rfl | split)
            rw [hy, hh]
            have hne : ((head f c a).2.2 ++ cb :: b).isEmpty = false := by simp
            simp only [hne, Bool.or_self, Bool.false_eq_true, if_false]
            rw [hh] at h
            generalize (head f c a).2.1 = k at *
            generalize (head f c a).2.2 = w at *
            cases w with
            | nil =>
              simp only [List.isEmpty_nil, Bool.or_true, if_true, Option.some.injEq, Prod.mk.injEq, true_and] at h
              obtain ⟨rfl, _⟩ := h
              rw [llWrite_eq r3 r2]
              have : head k cb b = (false, k, cb :: b) := by unfold head; rw [if_neg hm]
              rw [this]
              simp
            | cons d w =>
              simp only [List.isEmpty_cons, Bool.or_self, Bool.false_eq_true, if_false] at h
              obtain ⟨⟨z, rz⟩, hz, e⟩ := Option.map_eq_some_iff.1 h
              simp only [Prod.mk.injEq] at e
              obtain ⟨rfl, rfl, e3⟩ := e
              have hne2 : z.currElem ≠ 200 := fun x => hm (parse_end _ _ _ _ _ hz r1 q1 x)
              obtain ⟨k1, k2⟩ := parse_append (C := C) (cb :: b) (by simp) (d :: w).length ((d :: w ++ cb :: b).length + 2) ((d :: w).length + 2)
                k z (d :: w) (Nat.le_refl _) (by simp only [List.length_append]; omega) (by omega) q1 hz e3 hne2
              rw [k1]
              have hzs : z.state ≠ 108 := by
                have := (parse_ind (C := C) (P := fun x => x.state ≠ 108)
                  (fun f g e q => by rw [show g.state = f.state from congrArg Core.state e]; exact q)
                  (fun f _ q => by
                    have key : ∀ (k : Core), core (elemDone C f) = k → (elemDone C f).state = k.state := by rintro _ rfl; rfl
                    have : (elemDone C f).state = f.state := by
                      rcases elem_core C f with e | ⟨_, _, e⟩ | ⟨_, _, e⟩ | ⟨_, c, svc, ok, _, e⟩ | ⟨_, _, c, e⟩ | ⟨_, _, _, e⟩
                      all_goals exact key _ e
                    rw [this]; exact q) _ _ _ _ _ hz q1 r3).1
                exact this
              rw [llWrite_eq hzs e3]
              have : head z cb b = (false, z, cb :: b) := by unfold head; rw [if_neg hm]
              rw [this]
              simp
        · exfalso
          unfold llWrite at h
          dsimp only at h
          rw [if_neg (by simpa [stPass] using hs), if_pos he] at h
          simp at h

/-- What goes wrong is only that the data ends with an element. -/
theorem llWrite_none {C : Crypto} {f : F} {a : List UInt8} (p : PI f) (h : llWrite C f a = none) : llWrite C f (a ++ [200]) ≠ none := by
  cases a with
  | nil => simp [llWrite] at h
  | cons c a =>
    by_cases hs : f.state = 108
    · simp [llWrite, hs, stPass] at h
    · by_cases he : f.pendingErr = 0
      · rw [llWrite_eq hs he] at h
        obtain ⟨q1, q2, q3⟩ := head_PS (c := c) (b := a) p he hs
        split at h
        · cases h
        · rename_i hn
          have hh : (head f c a).1 = false := by
            cases hq : (head f c a).1
            · rfl
            · simp [hq] at hn
          rw [List.cons_append, llWrite_eq hs he]
          have hy : (head f c (a ++ [200])) = ((head f c a).1, (head f c a).2.1, (head f c a).2.2 ++ [200]) := by
            unfold head
            dsimp only
            repeat' (first | rfl | split)
          rw [hy, hh]
          have hne : ((head f c a).2.2 ++ [200]).isEmpty = false := by simp
          simp only [hne, Bool.or_self, Bool.false_eq_true, if_false]
          generalize (head f c a).2.1 = k at *
          generalize (head f c a).2.2 = w at *
          simp only [Option.map_eq_none_iff] at h
          rw [ne_eq, Option.map_eq_none_iff]
          rcases parse_none w.length (w.length + 2) k w (Nat.le_refl _) (by omega) q1 h ((w ++ [200]).length + 2)
            (by simp only [List.length_append, List.length_singleton]; omega) [200] (by simp) with h1 | ⟨n, g, h1, h2, h3, h4⟩
          · exact h1
          · rw [h1]
            obtain ⟨n, rfl⟩ : ∃ m, n = m + 1 := ⟨n - 1, by simp only [List.length_append, List.length_singleton] at h4; omega⟩
            rw [parse_round]
            unfold st1
            rw [if_pos h3]
            simp [Rd.go]
      · unfold llWrite at h
        dsimp only at h
        rw [if_neg (by simpa [stPass] using hs), if_pos he] at h
        simp at h

/-! ## What holds between calls -/

theorem PI_recv {C : Crypto} {f : F} {a : List UInt8} {x : F × List UInt8 × Nat} (h : llWrite C f a = some x) (p : PI f) : PI x.1 := by
  have hps := (recv_ind (C := C) (P := fun _ => True) (fun _ _ _ _ => trivial) (fun _ _ _ => trivial) (fun _ _ _ _ _ _ => trivial) f a x h
    (fun e => (p e).1) trivial).2
  intro he
  refine ⟨hps he, fun hm h2 => hm ?_⟩
  cases a with
  | nil => simp only [llWrite, Option.some.injEq] at h; subst h; exact absurd h2 ((p he).2 hm)
  | cons c a =>
    by_cases hs : f.state = 108
    · simp only [llWrite, hs, stPass, if_true, Option.some.injEq] at h; subst h; exact absurd h2 ((p he).2 hm)
    · by_cases hf : f.pendingErr = 0
      · rw [llWrite_eq hs hf] at h
        obtain ⟨q1, q2, q3⟩ := head_PS (c := c) (b := a) p hf hs
        by_cases hh : (head f c a).1 = true
        · rw [hh] at h
          simp only [Bool.true_or, if_true, Option.some.injEq] at h
          subst h
          exact absurd he (q3 hh)
        · have hh : (head f c a).1 = false := by simpa using hh
          split at h
          · simp only [Option.some.injEq] at h
            subst h
            exact absurd h2 (q2 hh).1
          · obtain ⟨z, hz, e⟩ := Option.map_eq_some_iff.1 h
            subst e
            exact parse_end _ _ _ _ _ hz (q2 hh).1 q1 h2
      · simp only [llWrite, hs, stPass, if_false, ne_eq, hf, not_false_eq_true, if_true, Option.some.injEq] at h
        subst h
        exact absurd he hf

theorem PI_pp {f g : F} (e : (g.b1, g.b2, g.currLen, g.readBuf) = (f.b1, f.b2, f.currLen, f.readBuf)) (e1 : g.currMsg = f.currMsg)
    (e2 : g.currElem = f.currElem) (h : f.pendingErr ≠ 0 → g.pendingErr ≠ 0) (p : PI f) : PI g := by
  simp only [Prod.mk.injEq] at e
  intro he
  have hf : f.pendingErr = 0 := Decidable.byContradiction fun x => h x he
  obtain ⟨p1, p2⟩ := p hf
  unfold PS at *
  rw [e.1, e.2.1, e.2.2.1, e.2.2.2, e1, e2]
  exact ⟨p1, p2⟩

theorem conn_err {C : Crypto} {f : F} {t : Bool} {a : Ans} {x : F × Rv} (h : tryConnect C f t a = some x) (he : f.pendingErr ≠ 0) :
    x.1 = f := by
  unfold tryConnect at h
  rw [if_pos he] at h
  simp only [Option.some.injEq] at h
  rw [← h]; rfl

theorem PI_conn {C : Crypto} {f : F} {t : Bool} {a : Ans} {x : F × Rv} (h : tryConnect C f t a = some x) (p : PI f) : PI x.1 := by
  have k := (K_conn h).1
  simp only [pp, Prod.mk.injEq] at k
  refine PI_pp (by simp [k]) k.2.1 k.2.2.1 (fun he => ?_) p
  rw [conn_err h he]; exact he

theorem send_eq {f : F} {n : Nat} {x : F × List UInt8} (h : ulWrite f n = some x) : ∃ w q, x.1 = { f with writeBuf := w, writePos := q } := by
  unfold ulWrite at h
  split at h
  · simp only [Option.some.injEq] at h; subst h; exact ⟨_, _, rfl⟩
  · split at h
    · cases h
    · dsimp only at h
      split at h
      · simp only [Option.some.injEq] at h; subst h; exact ⟨_, _, rfl⟩
      · simp only [Option.some.injEq] at h; subst h; exact ⟨_, _, rfl⟩

theorem PI_send {f : F} {n : Nat} {x : F × List UInt8} (h : ulWrite f n = some x) (p : PI f) : PI x.1 := by
  obtain ⟨w, q, e⟩ := send_eq h
  rw [e]
  exact p

theorem PI_init (c : Cfg) : PI (init c) := fun _ => ⟨PS_init c, fun h => absurd rfl h⟩

theorem PI_run {C : Crypto} {f g : F} {l : List In} (h : run C f l = some g) (p : PI f) : PI g := by
  induction l generalizing f with
  | nil => simp only [run, Option.some.injEq] at h; subst h; exact p
  | cons i l ih =>
    simp only [run] at h
    obtain ⟨x, hx, h⟩ := Option.bind_eq_some_iff.1 h
    refine ih h ?_
    cases i with
    | recv d => obtain ⟨y, hy, rfl⟩ := Option.map_eq_some_iff.1 hx; exact PI_recv hy p
    | conn t a => obtain ⟨y, hy, rfl⟩ := Option.map_eq_some_iff.1 hx; exact PI_conn hy p
    | send n => obtain ⟨y, hy, rfl⟩ := Option.map_eq_some_iff.1 hx; exact PI_send hy p

/-! ## Output -/

theorem send_len {f : F} {n : Nat} {x : F × List UInt8} (h : ulWrite f n = some x) : x.1.writeBuf.length ≤ f.writeBuf.length := by
  unfold ulWrite at h
  split at h
  · simp only [Option.some.injEq] at h; subst h; exact Nat.le_refl _
  · split at h
    · cases h
    · dsimp only at h
      split at h
      · simp only [Option.some.injEq] at h; subst h; exact Nat.zero_le _
      · simp only [Option.some.injEq] at h; subst h; exact Nat.le_refl _

theorem buf_run {C : Crypto} {f g : F} {l : List In} (h : run C f l = some g) (p : f.writeBuf.length ≤ dataSize) :
    g.writeBuf.length ≤ dataSize := by
  induction l generalizing f with
  | nil => simp only [run, Option.some.injEq] at h; subst h; exact p
  | cons i l ih =>
    simp only [run] at h
    obtain ⟨x, hx, h⟩ := Option.bind_eq_some_iff.1 h
    refine ih h ?_
    cases i with
    | recv d =>
      obtain ⟨y, hy, rfl⟩ := Option.map_eq_some_iff.1 hx
      rw [show y.1.writeBuf = f.writeBuf from congrArg Prod.fst (op_recv hy)]; exact p
    | conn t a => obtain ⟨y, hy, rfl⟩ := Option.map_eq_some_iff.1 hx; exact (K_conn hy).2 p
    | send n => obtain ⟨y, hy, rfl⟩ := Option.map_eq_some_iff.1 hx; exact Nat.le_trans (send_len hy) p

/-- A step of the handshake that has nothing to do. -/
def Quiet (f : F) (t : Bool) : Prop := f.pendingErr ≠ 0 ∨ (t = false ∧ (f.gotMsg = false ∨ (f.state = 107 ∧ f.writeBuf ≠ [])))

theorem quiet_conn {C : Crypto} {f : F} {t : Bool} {a : Ans} {x : F × Rv} (h : tryConnect C f t a = some x) (q : Quiet f t) : x.1 = f := by
  by_cases he : f.pendingErr = 0
  · obtain ⟨rfl, q'⟩ := q.resolve_left (fun z => z he)
    unfold tryConnect at h
    rw [if_neg (by simpa using he)] at h
    by_cases hg : f.gotMsg = true
    · rw [if_neg (by simp [hg]), if_neg (by simp)] at h
      have ⟨q1, q2⟩ : f.state = 107 ∧ f.writeBuf ≠ [] := by
        rcases q' with q | q
        · exact absurd (q.symm.trans hg) (by decide)
        · exact q
      rw [q1] at h
      rw [if_neg (by simpa using q2)] at h
      simp only [Option.some.injEq] at h; rw [← h]
    · rw [if_pos (by simp [hg])] at h
      simp only [Option.some.injEq] at h; rw [← h]
  · exact conn_err h he

/-- Some calls, with what was put into the write buffer and what the lower layer took.  A step of the handshake with data still
to send is only taken if there is nothing to do. -/
inductive Flow (C : Crypto) : F → List In → F → List UInt8 → List UInt8 → Prop
  | nil (f : F) : Flow C f [] f [] []
  | recv {f g : F} {d : List UInt8} {x : F × List UInt8 × Nat} {l : List In} {q s : List UInt8} :
      llWrite C f d = some x → Flow C x.1 l g q s → Flow C f (.recv d :: l) g q s
  | conn {f g : F} {t : Bool} {a : Ans} {x : F × Rv} {l : List In} {q s : List UInt8} :
      tryConnect C f t a = some x → f.writeBuf = [] → Flow C x.1 l g q s → Flow C f (.conn t a :: l) g (x.1.writeBuf ++ q) s
  | quiet {f g : F} {t : Bool} {a : Ans} {x : F × Rv} {l : List In} {q s : List UInt8} :
      tryConnect C f t a = some x → Quiet f t → Flow C x.1 l g q s → Flow C f (.conn t a :: l) g q s
  | send {f g : F} {n : Nat} {x : F × List UInt8} {l : List In} {q s : List UInt8} :
      ulWrite f n = some x → Flow C x.1 l g q s → Flow C f (.send n :: l) g q (x.2 ++ s)

/-- The position is in the buffer. -/
def Pos (f : F) : Prop := f.writePos ≤ f.writeBuf.length ∧ (f.writeBuf = [] → f.writePos = 0)

theorem Pos_send {f : F} {n : Nat} {x : F × List UInt8} (h : ulWrite f n = some x) (p : Pos f) :
    Pos x.1 ∧ f.writeBuf.drop f.writePos = x.2 ++ x.1.writeBuf.drop x.1.writePos := by
  unfold ulWrite at h
  split at h
  · rename_i he
    simp only [Option.some.injEq] at h; subst h
    exact ⟨p, rfl⟩
  · rename_i hne
    split at h
    · cases h
    · dsimp only at h
      split at h
      · rename_i hl
        simp only [Option.some.injEq] at h; subst h
        refine ⟨⟨Nat.le_refl _, fun _ => rfl⟩, ?_⟩
        simp only [List.length_take, List.length_drop] at hl
        simp only [List.drop_zero, List.append_nil]
        have := p.1
        rw [List.take_of_length_le]
        simp only [List.length_drop]; omega
      · rename_i hl
        simp only [Option.some.injEq] at h; subst h
        refine ⟨⟨by dsimp only; omega, fun e => ?_⟩, ?_⟩
        · dsimp only at e
          simp [e] at hne
        · dsimp only
          simp only [List.length_take, List.length_drop] at hl
          rw [← List.drop_drop, List.length_take, List.length_drop]
          rw [show min n (f.writeBuf.length - f.writePos) = n by omega]
          exact (List.take_append_drop n _).symm

theorem Flow.run {C : Crypto} {f g : F} {l : List In} {q s : List UInt8} (h : Flow C f l g q s) : run C f l = some g := by
  induction h with
  | nil => rfl
  | recv h _ ih => simp only [Certauth.run, step, h, Option.map_some, Option.bind_some]; exact ih
  | conn h _ _ ih => simp only [Certauth.run, step, h, Option.map_some, Option.bind_some]; exact ih
  | quiet h _ _ ih => simp only [Certauth.run, step, h, Option.map_some, Option.bind_some]; exact ih
  | send h _ ih => simp only [Certauth.run, step, h, Option.map_some, Option.bind_some]; exact ih

theorem Flow.ok {C : Crypto} {f g : F} {l : List In} {q s : List UInt8} (h : Flow C f l g q s) (p : Pos f) :
    Pos g ∧ f.writeBuf.drop f.writePos ++ q = s ++ g.writeBuf.drop g.writePos := by
  induction h with
  | nil f => exact ⟨p, by simp⟩
  | @recv f g d x l q s h _ ih =>
    have e := op_recv h
    have e1 : x.1.writeBuf = f.writeBuf := congrArg Prod.fst e
    have e2 : x.1.writePos = f.writePos := congrArg Prod.snd e
    unfold Pos at ih p
    rw [e1, e2] at ih
    exact ih p
  | @conn f g t a x l q s h hb _ ih =>
    have k := (K_conn h).1
    simp only [pp, Prod.mk.injEq] at k
    have e2 : x.1.writePos = 0 := k.2.2.2.1.trans (p.2 hb)
    obtain ⟨i1, i2⟩ := ih ⟨by omega, fun _ => e2⟩
    refine ⟨i1, ?_⟩
    rw [e2, List.drop_zero] at i2
    rw [hb, List.drop_nil, List.nil_append]
    exact i2
  | @quiet f g t a x l q s h hq _ ih =>
    rw [quiet_conn h hq] at ih
    exact ih p
  | @send f g n x l q s h _ ih =>
    obtain ⟨s1, s2⟩ := Pos_send h p
    obtain ⟨i1, i2⟩ := ih s1
    refine ⟨i1, ?_⟩
    rw [s2, List.append_assoc, i2, List.append_assoc]

/-! ## Whole messages -/

/-- What a trace says about elements. -/
def elems (tr : List Ev) : List (Nat × List UInt8) :=
  tr.filterMap fun e => match e with
    | .elem _ t d => some (t, d)
    | _ => none

theorem elems_elemDone (C : Crypto) (f : F) : elems (elemDone C f).tr = (f.currElem, f.readBuf) :: elems f.tr := by
  have key : ∀ (k : Core), core (elemDone C f) = k → (elemDone C f).tr = k.tr := by rintro _ rfl; rfl
  rcases elem_core C f with e | ⟨_, _, e⟩ | ⟨_, _, e⟩ | ⟨_, c, svc, ok, _, e⟩ | ⟨_, _, c, e⟩ | ⟨_, _, _, e⟩
  all_goals rw [key _ e]; rfl

theorem elems_put (C : Crypto) (f : F) (es : List (Nat × List UInt8)) : elems (es.foldl (put C) f).tr = es.reverse ++ elems f.tr := by
  induction es generalizing f with
  | nil => rfl
  | cons e es ih =>
    rw [List.foldl_cons, ih, put, elems_elemDone]
    simp

/-- The filter at the end of a message. -/
def ended (f : F) : F := { f with currElem := 200, currMsg := 0, gotMsg := true }

theorem llWrite_message {C : Crypto} {f : F} {c : UInt8} (es : List (Nat × List UInt8)) (rest : List UInt8) (h : Starts f c.toNat)
    (hw : ∀ e ∈ es, Wf e) : llWrite C f (c :: (encs es ++ 200 :: rest)) =
      some (ended (es.foldl (put C) (start f c.toNat)), rest, (es.foldl (put C) (start f c.toNat)).pendingErr) := by
  rw [llWrite_start h (by simp)]
  have hl := encs_len es
  obtain ⟨n, hn⟩ : ∃ n, (encs es ++ 200 :: rest).length + 2 = (n + 1) + es.length :=
    ⟨(encs es ++ 200 :: rest).length + 1 - es.length, by simp only [List.length_append, List.length_cons]; omega⟩
  have hi : Idle (start f c.toNat) := ⟨rfl, rfl, rfl, rfl⟩
  rw [hn, parse_encs _ _ _ _ hw hi, parse_round]
  have hj := Idle_foldl C es _ hi
  generalize es.foldl (put C) (start f c.toNat) = g at hj
  unfold st1
  rw [if_pos hj.1]
  rfl

theorem llWrite_boundary {C : Crypto} {f : F} {c : UInt8} (es : List (Nat × List UInt8)) (h : Starts f c.toNat)
    (hw : ∀ e ∈ es, Wf e) (hne : es ≠ []) : llWrite C f (c :: encs es) = none := by
  have hl := encs_len es
  have hp : 0 < es.length := List.length_pos_iff.2 hne
  have hi : Idle (start f c.toNat) := ⟨rfl, rfl, rfl, rfl⟩
  rw [llWrite_start h (fun e => by rw [e] at hl; simp at hl; exact hne hl)]
  obtain ⟨n, hn⟩ : ∃ n, (encs es).length + 2 = (n + 1) + es.length := ⟨(encs es).length + 1 - es.length, by omega⟩
  have := parse_encs (C := C) [] es (n + 1) (start f c.toNat) hw hi
  rw [List.append_nil] at this
  rw [hn, this, parse_round]
  have hj := Idle_foldl C es _ hi
  generalize es.foldl (put C) (start f c.toNat) = g at hj
  unfold st1
  rw [if_pos hj.1]
  rfl

/-- An error stays, unless a signature or a certificate comes. -/
theorem err_put (C : Crypto) (f : F) (e : Nat × List UInt8) (h4 : e.1 ≠ 104) (h5 : e.1 ≠ 105) (h : f.pendingErr ≠ 0) :
    (put C f e).pendingErr ≠ 0 := by
  have key : ∀ g : F, g.currElem ≠ 104 → g.currElem ≠ 105 → g.pendingErr ≠ 0 → (handleElem C g).pendingErr ≠ 0 := by
    intro g g4 g5 hg
    unfold handleElem
    dsimp only
    split
    all_goals first
      | exact hg
      | contradiction
      | (repeat' split) <;> first | exact hg | exact (show geProtoerr ≠ 0 by decide)
  exact key { f with currElem := e.1, b1 := true, currLen := e.2.length, b2 := true, readBuf := e.2, tr := .elem f.state e.1 e.2 :: f.tr } h4 h5 h

theorem err_foldl (C : Crypto) (es : List (Nat × List UInt8)) (f : F) (he : ∀ e ∈ es, e.1 ≠ 104 ∧ e.1 ≠ 105) (h : f.pendingErr ≠ 0) :
    (es.foldl (put C) f).pendingErr ≠ 0 := by
  induction es generalizing f with
  | nil => exact h
  | cons e es ih =>
    exact ih _ (fun x hx => he x (.tail _ hx)) (err_put C f e (he e (.head _)).1 (he e (.head _)).2 h)

end Gensio.Certauth
