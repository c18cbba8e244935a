import Verif.Lemmas.CertauthAuth

/-!
# What a server of the authentication filter has seen when it says that the other side is authenticated
-/
namespace Gensio.Certauth

/-- A signature of a challenge that had been made before was checked. -/
def SigOk (tr : List Ev) (c : Nat) : Prop :=
  ∃ l1 l2 chal svc sg, tr = l1 ++ .sig c chal svc sg true :: l2 ∧ Ev.challenge chal ∈ l2

/-- A certificate was accepted. -/
def VerOk (tr : List Ev) (c : Nat) : Prop := ∃ e p, Ev.verify c e p ∈ tr ∧ (p = 0 ∨ (p = 2 ∧ e = 0))

/-- A certificate was accepted and its owner signed the challenge. -/
def CertOk (tr : List Ev) : Prop := ∃ c, SigOk tr c ∧ VerOk tr c

/-- The application accepted a password. -/
def PwOk (tr : List Ev) : Prop := ∃ pw, Ev.password pw 0 ∈ tr

/-- The application accepted the second factor. -/
def TfaOk (tr : List Ev) : Prop := ∃ v, Ev.twofa v 0 ∈ tr

/-- Something other than a password. -/
def First (useChild : Bool) (tr : List Ev) : Prop :=
  (useChild = true ∧ Ev.child ∈ tr) ∨ Ev.authBegin 0 ∈ tr ∨ Ev.precert 0 ∈ tr ∨ CertOk tr

/-- What is needed. -/
def Justified (useChild reqPw do2fa : Bool) (tr : List Ev) : Prop :=
  (First useChild tr ∨ PwOk tr) ∧ (reqPw = true → PwOk tr) ∧ (do2fa = true → TfaOk tr)

/-- None of the events that the code handles wrongly. -/
def CleanEv (reqPw do2fa : Bool) : Ev → Prop
  | .elem st tag d => tag ≠ 106 ∧ (tag = 104 → st = 3) ∧ (tag = 108 → reqPw = true → d.getD 0 0 ≠ 0)
  | .password _ r => (reqPw = true ∨ do2fa = true) → r ≠ 2 ∧ r ≠ 22
  | .twofa _ r => do2fa = true → r ≠ 2 ∧ r ≠ 22
  | _ => True

/-- None of them. -/
def Clean (reqPw do2fa : Bool) (tr : List Ev) : Prop := ∀ e ∈ tr, CleanEv reqPw do2fa e

theorem Clean.tail {r d : Bool} {e : Ev} {l : List Ev} (h : Clean r d (e :: l)) : Clean r d l := fun x hx => h x (.tail _ hx)

theorem SigOk.cons {l : List Ev} {c : Nat} (e : Ev) (h : SigOk l c) : SigOk (e :: l) c := by
  obtain ⟨l1, l2, a, b, s, rfl, h⟩ := h
  exact ⟨e :: l1, l2, a, b, s, rfl, h⟩
theorem VerOk.cons {l : List Ev} {c : Nat} (e : Ev) (h : VerOk l c) : VerOk (e :: l) c := by
  obtain ⟨a, b, h, i⟩ := h
  exact ⟨a, b, .tail _ h, i⟩
theorem PwOk.cons {l : List Ev} (e : Ev) (h : PwOk l) : PwOk (e :: l) := by
  obtain ⟨a, h⟩ := h
  exact ⟨a, .tail _ h⟩
theorem First.cons {u : Bool} {l : List Ev} (e : Ev) (h : First u l) : First u (e :: l) := by
  rcases h with h | h | h | ⟨c, h, i⟩
  · exact .inl ⟨h.1, .tail _ h.2⟩
  · exact .inr (.inl (.tail _ h))
  · exact .inr (.inr (.inl (.tail _ h)))
  · exact .inr (.inr (.inr ⟨c, h.cons e, i.cons e⟩))

/-- What holds between calls for a server. -/
structure SInv (u r d : Bool) (k : Core) : Prop where
  srv : k.isClient = false
  uc : k.useChild = u
  rp : k.reqPw = r
  d2 : k.do2fa = d
  ch : k.challenge ≠ none
  st : k.state = 1 ∨ k.state = 3 ∨ k.state = 5 ∨ k.state = 107 ∨ k.state = 108 ∨ k.state = 109
  fresh : k.state = 3 → Ev.challenge (k.challenge.getD []) ∈ k.tr
  rsp : k.rsp = 1 → ∃ c, k.cert = some c ∧ SigOk k.tr c
  ver : k.verified = true → ∃ c, k.cert = some c ∧ VerOk k.tr c
  early : k.state = 1 ∨ k.state = 3 ∨ k.state = 5 → k.result = 1 → First u k.tr
  fin : k.state = 107 ∨ k.state = 108 → k.result = 1 → Justified u r d k.tr
  pw : k.state = 1 ∨ k.state = 3 ∨ k.state = 5 → r = true → ∀ p, k.password = some p → p.getD 0 0 ≠ 0

/-- An element keeps it. -/
theorem SInv_elem {C : Crypto} {u r d : Bool} (f : F) (full : Full f) (h : Clean r d f.tr → SInv u r d (core f)) :
    Clean r d (elemDone C f).tr → SInv u r d (core (elemDone C f)) := by
  intro hc
  have key : ∀ (k : Core), core (elemDone C f) = k → (elemDone C f).tr = k.tr := by rintro _ rfl; rfl
  rcases elem_core C f with e | ⟨e1, e2, e⟩ | ⟨e1, e2, e⟩ | ⟨e1, c, svc, ok, e2, e⟩ | ⟨e1, e2, c, e⟩ | ⟨e1, e2, e3, e⟩
  all_goals rw [key _ e] at hc; rw [e]; dsimp only at hc
  · have H := h hc.tail
    exact ⟨H.srv, H.uc, H.rp, H.d2, H.ch, H.st, fun s => .tail _ (H.fresh s), fun s => (H.rsp s).imp fun c x => ⟨x.1, x.2.cons _⟩,
      fun s => (H.ver s).imp fun c x => ⟨x.1, x.2.cons _⟩, fun s t => (H.early s t).cons _,
      fun s t => by
        obtain ⟨a, b, c⟩ := H.fin s t
        exact ⟨a.imp (First.cons _) (PwOk.cons _), fun x => (b x).cons _, fun x => (c x).imp fun _ y => .tail _ y⟩,
      H.pw⟩
  · have H := h hc.tail
    refine ⟨H.srv, H.uc, H.rp, H.d2, H.ch, H.st, fun s => .tail _ (H.fresh s), fun s => (H.rsp s).imp fun c x => ⟨x.1, x.2.cons _⟩,
      fun s => (H.ver s).imp fun c x => ⟨x.1, x.2.cons _⟩, fun s t => (H.early s t).cons _,
      fun s t => by
        obtain ⟨a, b, c⟩ := H.fin s t
        exact ⟨a.imp (First.cons _) (PwOk.cons _), fun x => (b x).cons _, fun x => (c x).imp fun _ y => .tail _ y⟩, ?_⟩
    intro _ hr p hp
    have h1 := (hc _ (.head _)).2.2 e1 hr
    simp only [Option.some.injEq] at hp
    rw [← hp]
    have h3 : limitedStrlen f.readBuf f.currLen = f.currLen := by
      unfold limitedStrlen
      rw [if_neg]
      rintro (h4 | h4)
      · have := full.2.1; omega
      · exact h1 h4
    rw [h3, ← full.1, List.take_length]
    exact h1
  · exact absurd e2 (h hc.tail).ch
  · have H := h hc.tail.tail
    refine ⟨H.srv, H.uc, H.rp, H.d2, H.ch, H.st, fun s => .tail _ (.tail _ (H.fresh s)), fun s => ?_,
      fun s => (H.ver s).imp fun c x => ⟨x.1, (x.2.cons _).cons _⟩, fun s t => ((H.early s t).cons _).cons _,
      fun s t => by
        obtain ⟨a, b, c⟩ := H.fin s t
        exact ⟨a.imp (fun x => (x.cons _).cons _) (fun x => (x.cons _).cons _), fun x => ((b x).cons _).cons _,
          fun x => (c x).imp fun _ y => .tail _ (.tail _ y)⟩, H.pw⟩
    have hok : ok = true := by
      cases ok
      · simp [rSuccess, rFailure] at s
      · rfl
    subst hok
    exact ⟨c, e2, [], .elem f.state f.currElem f.readBuf :: f.tr, f.challenge.getD [], svc, f.readBuf, rfl,
      .tail _ (H.fresh ((hc _ (.tail _ (.head _))).2.1 e1))⟩
  · have H := h hc.tail
    refine ⟨H.srv, H.uc, H.rp, H.d2, H.ch, H.st, fun s => .tail _ (H.fresh s), fun s => ?_,
      fun s => ?_, fun s t => (H.early s t).cons _,
      fun s t => by
        obtain ⟨a, b, c⟩ := H.fin s t
        exact ⟨a.imp (First.cons _) (PwOk.cons _), fun x => (b x).cons _, fun x => (c x).imp fun _ y => .tail _ y⟩, H.pw⟩
    · obtain ⟨c', h1, _⟩ := H.rsp s
      exact absurd (e2.symm.trans h1) (by simp)
    · obtain ⟨c', h1, _⟩ := H.ver s
      exact absurd (e2.symm.trans h1) (by simp)
  · exact absurd e1 (hc _ (.head _)).1

/-! ## The handshake -/

/-- What `finish_result` does to the part that decides. -/
theorem finish_core (f : F) :
    (f.pendingErr = 0 ∧ core (finishResult f).1 = { core f with result := if f.result = 0 then 2 else f.result, state := 107 }) ∨
    core (finishResult f).1 = { core f with result := if f.result = 0 then 2 else f.result, state := 109 } := by
  obtain ⟨w, p, s, e, h, hp⟩ := finishResult_spec f
  rw [e]
  rcases h with ⟨h1, h2, _⟩ | ⟨h1, h2, _⟩
  · refine .inl ⟨Classical.byContradiction fun x => hp x h1, ?_⟩
    rw [h2]; rfl
  · right; rw [h2]; rfl

theorem ask_core (f : F) (n : Nat) : core (askPassword f n).1 = { core f with state := 5 } := by
  have e : W { f with writeBuf := [] } (writeByte (writeElem (writeByte { f with writeBuf := [] } stPwReq) 110
      (u16 (if f.do2fa then n + 256 else n))) 200) := ((W_writeByte _ _).trans (W_writeElem _ _ _)).trans (W_writeByte _ _)
  unfold askPassword brk
  dsimp only
  obtain ⟨w, p, e, _⟩ := e
  rw [e]
  rfl

theorem try_core (f : F) : core (tryPassword f).1 = { core f with state := 5 } := ask_core _ _

/-- `finish_result` keeps it. -/
theorem SInv_finish {u r d : Bool} {f : F} {k : Core} (hk : core f = k) (H : SInv u r d { k with state := 109 })
    (hr : f.pendingErr = 0 → k.result = 1 → Justified u r d k.tr) : SInv u r d (core (finishResult f).1) := by
  subst hk
  rcases finish_core f with ⟨e1, e⟩ | e
  · rw [e]
    refine ⟨H.srv, H.uc, H.rp, H.d2, H.ch, by simp, by simp, H.rsp, H.ver, by simp, fun _ h => hr e1 ?_, by simp⟩
    dsimp only at h
    split at h
    · cases h
    · exact h
  · rw [e]
    exact ⟨H.srv, H.uc, H.rp, H.d2, H.ch, by simp, by simp, H.rsp, H.ver, by simp, by simp, by simp⟩

theorem SInv.err {u r d : Bool} {k : Core} (H : SInv u r d k) : SInv u r d { k with state := 109 } :=
  ⟨H.srv, H.uc, H.rp, H.d2, H.ch, by simp, by simp, H.rsp, H.ver, by simp, by simp, by simp⟩

theorem SInv_fail {u r d : Bool} {f : F} {e : Nat} (he : e ≠ 0) (H : SInv u r d (core f)) : SInv u r d (core (fail f e).1) :=
  SInv_finish (f := { f with pendingErr := e }) rfl H.err fun h => absurd h he

/-- The state for the password. -/
theorem SInv.to5 {u r d : Bool} {k : Core} (H : SInv u r d k) (h : k.state = 3) : SInv u r d { k with state := 5 } :=
  ⟨H.srv, H.uc, H.rp, H.d2, H.ch, by simp, by simp, H.rsp, H.ver, fun _ => H.early (by simp [h]), by simp, fun _ => H.pw (by simp [h])⟩

/-- An event that says nothing. -/
theorem SInv.ev {u r d : Bool} {k : Core} (H : SInv u r d k) (e : Ev) : SInv u r d { k with tr := e :: k.tr } :=
  ⟨H.srv, H.uc, H.rp, H.d2, H.ch, H.st, fun s => .tail _ (H.fresh s), fun s => (H.rsp s).imp fun c x => ⟨x.1, x.2.cons _⟩,
    fun s => (H.ver s).imp fun c x => ⟨x.1, x.2.cons _⟩, fun s t => (H.early s t).cons _,
    fun s t => by
      obtain ⟨a, b, c⟩ := H.fin s t
      exact ⟨a.imp (First.cons _) (PwOk.cons _), fun x => (b x).cons _, fun x => (c x).imp fun _ y => .tail _ y⟩,
    H.pw⟩

/-- A result before the end. -/
theorem SInv.res {u r d : Bool} {k : Core} (H : SInv u r d k) (v : Nat) (s : k.state = 1 ∨ k.state = 3) (hv : v = 1 → First u k.tr) :
    SInv u r d { k with result := v } :=
  ⟨H.srv, H.uc, H.rp, H.d2, H.ch, H.st, H.fresh, H.rsp, H.ver, fun _ h => hv h,
    fun t _ => by
      exfalso
      change k.state = 107 ∨ k.state = 108 at t
      omega,
    H.pw⟩

theorem hello_core (f : F) (a : Ans) : core (helloAuth f a) = core f ∨
    (f.useChildAuth = true ∧ core (helloAuth f a) = { core f with result := 1, tr := .child :: f.tr }) := by
  unfold helloAuth setDigest
  dsimp only
  split
  · rename_i h
    simp only [Bool.and_eq_true] at h
    exact .inr ⟨h.1, rfl⟩
  · exact .inl rfl

theorem SInv_helloAuth {u r d : Bool} {f : F} (a : Ans) (H : SInv u r d (core f)) (s : f.state = 1) :
    SInv u r d (core (helloAuth f a)) ∧ (helloAuth f a).state = 1 := by
  have hs : (helloAuth f a).state = (core (helloAuth f a)).state := rfl
  rcases hello_core f a with e | ⟨h, e⟩
  · rw [hs, e]; exact ⟨H, s⟩
  · rw [hs, e]
    refine ⟨SInv.res (k := { core f with tr := .child :: f.tr }) (H.ev .child) 1 (.inl s) fun _ => .inl ⟨?_, .head _⟩, s⟩
    rw [← H.uc]; exact h

theorem SInv_authBegin {u r d : Bool} {f : F} (n : Nat) (H : SInv u r d (core f)) (s : f.state = 1) :
    SInv u r d (core (authBegin f n).2) ∧ (authBegin f n).2.state = 1 ∧ ((authBegin f n).1 = false → (authBegin f n).2.pendingErr ≠ 0) := by
  have H1 := H.ev (.authBegin n)
  unfold authBegin
  dsimp only
  split
  · rename_i h; subst h
    exact ⟨SInv.res (k := { core f with tr := .authBegin 0 :: f.tr }) H1 1 (.inl s) fun _ => .inr (.inl (.head _)), s, by simp⟩
  · split
    · exact ⟨SInv.res (k := { core f with tr := .authBegin n :: f.tr }) H1 3 (.inl s) (by simp), s, by simp⟩
    · split
      · exact ⟨H1, s, fun _ => by assumption⟩
      · exact ⟨H1, s, by simp⟩

theorem SInv_clientHello {u r d : Bool} {f : F} (a : Ans) (H : SInv u r d (core f)) (s : f.state = 1) :
    SInv u r d (core (clientHello f a).1) := by
  obtain ⟨H2, s2⟩ := SInv_helloAuth a H s
  obtain ⟨H3, s3, p3⟩ := SInv_authBegin a.authBegin H2 s2
  unfold clientHello
  split
  · exact H
  · split
    · exact H
    · dsimp only
      split
      · rename_i h
        exact SInv_finish rfl H3.err fun h2 => absurd h2 (p3 (by simpa using h))
      · generalize authBegin (helloAuth f a) a.authBegin = x at H3 s3
        have w1 : W x.2 (writeElem (writeByte { x.2 with writeBuf := [] } stServerHello) 100
            (u16 (writeByte { x.2 with writeBuf := [] } stServerHello).myVersion)) :=
          ((W.buf _).trans (W_writeByte _ _)).trans (W_writeElem _ _ _)
        generalize writeElem (writeByte { x.2 with writeBuf := [] } stServerHello) 100
            (u16 (writeByte { x.2 with writeBuf := [] } stServerHello).myVersion) = y at w1
        have hy : SInv u r d (core y) := by rw [w1.core]; exact H3
        have sy : y.state = 1 := by rw [← s3]; exact congrArg Core.state w1.core
        split
        · have w2 : W y (writeU16 (writeByte y 103) (y.challenge.getD []).length) := (W_writeByte _ _).trans (W_write _ _)
          have := w2.core
          show SInv u r d (core (writeU16 (writeByte y 103) (y.challenge.getD []).length))
          rw [this]; exact hy
        · rename_i c hc
          generalize hz : ({ y with challenge := some c, tr := .challenge c :: y.tr } : F) = z
          have w2 : W z (writeElem z 103 c) := W_writeElem _ _ _
          generalize hq : writeElem z 103 c = q at w2
          have w3 : W z (if 2 ≤ q.version then writeOpt q 112 q.aux else q) := by
            split
            · exact w2.trans (W_writeOpt _ _ _)
            · exact w2
          have w4 := w3.trans (W_writeByte _ 200)
          generalize hv : writeByte (if 2 ≤ q.version then writeOpt q 112 q.aux else q) 200 = v at w4
          show SInv u r d { core v with state := 3 }
          rw [w4.core, ← hz]
          have Hv := hy.ev (.challenge c)
          exact ⟨Hv.srv, Hv.uc, Hv.rp, Hv.d2, by simp [core], by simp, fun _ => .head _, Hv.rsp, Hv.ver,
            fun _ => Hv.early (.inl sy), by simp, fun _ => Hv.pw (.inl sy)⟩

theorem SInv_precert {u r d : Bool} {f : F} (n : Nat) (H : SInv u r d (core f)) (s : f.state = 3) :
    SInv u r d (core (precert f n).2) ∧ (precert f n).2.state = 3 ∧ ((precert f n).1 = false → (precert f n).2.pendingErr ≠ 0) ∧
      (precert f n).2.cert = f.cert := by
  have H1 := H.ev (.precert n)
  unfold precert
  split
  · exact ⟨H, s, by simp, rfl⟩
  · dsimp only
    split
    · rename_i h; subst h
      exact ⟨SInv.res (k := { core f with tr := .precert 0 :: f.tr }) H1 1 (.inr s) fun _ => .inr (.inr (.inl (.head _))), s, by simp, rfl⟩
    · split
      · exact ⟨SInv.res (k := { core f with tr := .precert n :: f.tr }) H1 3 (.inr s) (by simp), s, by simp, rfl⟩
      · split
        · exact ⟨H1, s, fun _ => by assumption, rfl⟩
        · exact ⟨H1, s, by simp, rfl⟩

theorem SInv_verifyCert {C : Crypto} {u r d : Bool} {f : F} {c : Nat} (n : Nat) (H : SInv u r d (core f)) (s : f.state = 3)
    (hc : f.cert = some c) : SInv u r d (core (verifyCert C f c n).1) ∧ (verifyCert C f c n).1.state = 3 := by
  have H1 := H.ev (.verify c (C.verify c) n)
  unfold verifyCert
  dsimp only
  generalize hrv : (if n = geNotsup then (if C.verify c ≠ 0 then geNotsup else 0) else n) = rv
  split
  · rename_i h
    rw [h] at hrv
    refine ⟨⟨H1.srv, H1.uc, H1.rp, H1.d2, H1.ch, H1.st, H1.fresh, H1.rsp, fun _ => ⟨c, hc, _, _, .head _, ?_⟩, H1.early, H1.fin, H1.pw⟩, s⟩
    by_cases h1 : n = 2
    · subst h1
      by_cases h2 : C.verify c = 0
      · exact .inr ⟨rfl, h2⟩
      · simp [geNotsup, h2] at hrv
    · rw [if_neg (show ¬ n = geNotsup from h1)] at hrv
      exact .inl hrv
  · exact ⟨H1, s⟩

theorem SInv_try {u r d : Bool} {f : F} (H : SInv u r d (core f)) (s : f.state = 3) : SInv u r d (core (tryPassword f).1) := by
  rw [try_core]; exact H.to5 s
theorem SInv_ask {u r d : Bool} {f : F} {n : Nat} (H : SInv u r d (core f)) (s : f.state = 3) : SInv u r d (core (askPassword f n).1) := by
  rw [ask_core]; exact H.to5 s

theorem SInv_challengeRsp {C : Crypto} {u r d : Bool} {f : F} (a : Ans) (H : SInv u r d (core f)) (s : f.state = 3) :
    SInv u r d (core (challengeRsp C f a).1) := by
  unfold challengeRsp
  split
  · exact SInv_try H s
  · split
    · split
      · exact SInv_fail (by decide) H
      · exact SInv_try H s
    · rename_i c hc
      split
      · exact SInv_fail (by decide) H
      · obtain ⟨H2, s2, p2, c2⟩ := SInv_precert a.precert H s
        dsimp only
        split
        · rename_i h
          exact SInv_finish rfl H2.err fun h2 => absurd h2 (p2 (by simpa using h))
        · obtain ⟨H3, s3⟩ := SInv_verifyCert (C := C) a.postcert H2 s2 (c2.trans hc)
          generalize verifyCert C (precert f a.precert).2 c a.postcert = y at H3 s3
          have fin : y.1.verified = true ∧ y.1.responseResult = rSuccess →
              SInv u r d (core { y.1 with result := rSuccess }) := by
            rintro ⟨h1, h2⟩
            refine SInv.res (k := core y.1) H3 1 (.inr s3) fun _ => .inr (.inr (.inr ?_))
            obtain ⟨c1, i1, j1⟩ := H3.rsp h2
            obtain ⟨c2, i2, j2⟩ := H3.ver h1
            rw [i1] at i2
            cases i2
            exact ⟨c1, j1, j2⟩
          split
          · split
            · split
              · rename_i h
                have := fin h
                split
                · exact SInv_ask (f := { y.1 with result := rSuccess }) this s3
                · exact SInv_try (f := { y.1 with result := rSuccess }) this s3
              · exact SInv_try (f := { y.1 with result := rErr }) (SInv.res (k := core y.1) H3 3 (.inr s3) (by simp)) s3
            · split
              · rename_i h
                exact SInv_fail h.1 H3
              · split
                · rename_i h
                  have := fin h
                  split
                  · exact SInv_ask (f := { y.1 with result := rSuccess }) this s3
                  · exact SInv_try (f := { y.1 with result := rSuccess }) this s3
                · exact SInv_try H3 s3
          · exact SInv_try H3 s3

theorem SInv_check2fa {u r d : Bool} {f : F} {n : Nat} (H : SInv u r d { core f with state := 109 })
    (h0 : f.pendingErr = 0 → n = 0 → (First u f.tr ∨ PwOk f.tr) ∧ (r = true → PwOk f.tr))
    (h1 : f.pendingErr = 0 → f.result = 1 → ¬(n = 2 ∨ n = 22)) : SInv u r d (core (check2fa f n).1) := by
  have H1 := H.ev (.twofa (f.val2fa.getD []) n)
  have J : f.pendingErr = 0 → n = 0 → Justified u r d (.twofa (f.val2fa.getD []) n :: f.tr) := by
    intro a b
    obtain ⟨x, y⟩ := h0 a b
    exact ⟨x.imp (First.cons _) (PwOk.cons _), fun z => (y z).cons _, fun _ => ⟨f.val2fa.getD [], by rw [b]; exact .head _⟩⟩
  unfold check2fa
  dsimp only
  split
  · rename_i hn
    refine SInv_finish rfl ⟨H1.srv, H1.uc, H1.rp, H1.d2, H1.ch, by simp, by simp, H1.rsp, H1.ver, by simp, by simp, by simp⟩ ?_
    intro hp _
    exact J hp hn
  · rename_i hn
    split
    · rename_i hn2
      exact SInv_finish rfl H1 fun hp hr => absurd (.inr hn2) (h1 hp hr)
    · split
      · exact SInv_finish rfl H1 fun hp => absurd hp hn
      · rename_i hn3
        exact SInv_finish rfl H1 fun hp hr => absurd (.inl (by simpa [geNotsup] using hn3)) (h1 hp hr)

/-- The trace after the last message. -/
theorem check2fa_tr (f : F) (n : Nat) : (check2fa f n).1.tr = .twofa (f.val2fa.getD []) n :: f.tr := by
  have key : ∀ g : F, (finishResult g).1.tr = g.tr := by
    intro g
    obtain ⟨w, p, s, e, _⟩ := finishResult_spec g
    rw [e]
  unfold check2fa
  dsimp only
  rw [key]
  repeat' split
  all_goals rfl

theorem finish_tr (g : F) : (finishResult g).1.tr = g.tr := by
  obtain ⟨w, p, s, e, _⟩ := finishResult_spec g
  rw [e]

theorem SInv_passwordCase {u r d : Bool} {f : F} (a : Ans) (H : SInv u r d (core f)) (s : f.state = 5)
    (hc : Clean r d (passwordCase f a).1.tr) : SInv u r d (core (passwordCase f a).1) := by
  have hrp : f.requirePassword = r := H.rp
  have hd2 : f.do2fa = d := H.d2
  have He := H.early (.inr (.inr s))
  have Hp := H.pw (.inr (.inr s))
  unfold passwordCase at hc ⊢
  split
  · exact SInv_fail (by decide) H
  · rename_i h1
    rw [if_neg h1] at hc
    split
    · rename_i h2
      rw [if_pos h2] at hc
      have hr : ¬(r = true) := by rw [← hrp]; simpa using h2.2
      split
      · rename_i h3
        rw [if_pos h3] at hc
        have hp1 := He h3.2
        exact SInv_check2fa (f := { f with result := 0 })
          ⟨H.srv, H.uc, H.rp, H.d2, H.ch, by simp, by simp, H.rsp, H.ver, by simp, by simp, by simp⟩
          (fun _ _ => ⟨.inl hp1, fun x => absurd x hr⟩) (fun _ h => by cases h)
      · rename_i h3
        refine SInv_finish rfl H.err fun _ hr1 => ⟨.inl (He hr1), fun x => absurd x hr, fun hd => ?_⟩
        exfalso
        have hv : f.val2fa.isSome = false := by
          cases hv : f.val2fa.isSome
          · rfl
          · exact absurd ⟨hv, hr1⟩ h3
        exact h1 ⟨hd2.trans hd, by simpa using hv⟩
    · rename_i h2
      rw [if_neg h2] at hc
      split
      · exact SInv_fail (by decide) H
      · rename_i h3
        rw [if_neg h3] at hc
        split
        · rename_i hpw
          refine SInv_finish rfl H.err fun _ hr1 => ?_
          exfalso
          have hr1 : f.result = 1 := hr1
          rw [hpw] at h3
          simp only [Option.isNone_none, and_true, not_or] at h3
          exact h2 ⟨by rw [hr1]; decide, by simpa using h3.2⟩
        · rename_i pw hpw
          rw [hpw] at hc
          dsimp only at hc
          split
          · rename_i h4
            refine SInv_finish rfl H.err fun _ hr1 => ?_
            exfalso
            have hr1 : f.result = 1 := hr1
            have : r = true := by
              rw [← hrp]
              cases hq : f.requirePassword
              · exact absurd ⟨by rw [hr1]; decide, by simpa using hq⟩ h2
              · rfl
            exact Hp this pw hpw h4
          · rename_i h4
            rw [if_neg h4] at hc
            generalize hg : ({ f with tr := .password pw a.password :: f.tr, password := some (List.replicate pw.length 0) } : F) = g at hc ⊢
            have Hg : SInv u r d { core g with state := 109 } := by
              rw [← hg]
              have := H.err.ev (.password pw a.password)
              exact ⟨this.srv, this.uc, this.rp, this.d2, this.ch, by simp, by simp, this.rsp, this.ver, by simp, by simp, by simp⟩
            have tg : g.tr = .password pw a.password :: f.tr := by rw [← hg]
            have dg : g.do2fa = d := by rw [← hg]; exact hd2
            have rg : g.result = f.result := by rw [← hg]
            generalize hk : passwordAns g a.password = k at hc ⊢
            unfold passwordAns at hk
            have Hk : SInv u r d { core k with state := 109 } := by
              rw [← hk]
              split
              · exact ⟨Hg.srv, Hg.uc, Hg.rp, Hg.d2, Hg.ch, by simp, by simp, Hg.rsp, Hg.ver, by simp, by simp, by simp⟩
              · split
                · exact Hg
                · split <;> exact Hg
            have tk : k.tr = .password pw a.password :: f.tr := by
              rw [← hk]; repeat' split
              all_goals exact tg
            have dk : k.do2fa = d := by
              rw [← hk]; repeat' split
              all_goals exact dg
            have hcl : Clean r d (.password pw a.password :: f.tr) := by
              rw [← tk]
              split at hc
              · rwa [finish_tr] at hc
              · rw [check2fa_tr] at hc; exact hc.tail
            have cp := hcl _ (.head _)
            -- an accepted password, or an error, or no result
            have P : (a.password = 0) ∨ k.pendingErr ≠ 0 ∨ (k.result = 0 ∧ d = false) := by
              by_cases e0 : a.password = 0
              · exact .inl e0
              · by_cases e1 : a.password = 2 ∨ a.password = 22
                · right; right
                  have hnr : ¬(r = true ∨ d = true) := fun x => by have := cp x; omega
                  have k2 : k = g := by
                    rw [← hk, if_neg e0]
                    rcases e1 with e1 | e1 <;> simp [e1, geCertinvalid, geNotsup]
                  refine ⟨?_, by simpa using fun x => hnr (.inr x)⟩
                  rw [k2, rg]
                  apply Classical.byContradiction
                  intro x
                  refine h2 ⟨x, ?_⟩
                  rw [hrp]; simpa using fun x => hnr (.inl x)
                · right; left
                  rw [← hk, if_neg e0, if_neg (by simp only [geCertinvalid]; omega), if_pos (by simp only [geNotsup]; omega)]
                  exact e0
            have PW : a.password = 0 → PwOk k.tr := fun e => ⟨pw, by rw [tk, e]; exact .head _⟩
            dsimp only
            split
            · rename_i hnd
              refine SInv_finish rfl Hk fun hp hr1 => ?_
              rcases P with e | e | e
              · refine ⟨.inr (PW e), fun _ => PW e, fun hd => ?_⟩
                rw [dk, hd] at hnd
                simp at hnd
              · exact absurd hp e
              · exact absurd (e.1.symm.trans hr1) (by decide)
            · rename_i hnd
              rw [if_neg hnd] at hc
              have hd : d = true := by rw [← dk]; simpa using hnd
              refine SInv_check2fa Hk (fun hp hn => ?_) (fun hp hr1 => ?_)
              · rcases P with e | e | e
                · exact ⟨.inr (PW e), fun _ => PW e⟩
                · exact absurd hp e
                · rw [hd] at e; exact absurd e.2 (by decide)
              · rw [check2fa_tr] at hc
                have := hc _ (.head _) hd
                omega

/-- What a call does to what holds between calls. -/
theorem SInv_conn {C : Crypto} {u r d : Bool} {f : F} {t : Bool} {a : Ans} {x : F × Rv} (H : SInv u r d (core f))
    (h : tryConnect C f t a = some x) (hc : Clean r d x.1.tr) : SInv u r d (core x.1) := by
  unfold tryConnect at h
  split at h
  · simp only [Option.some.injEq] at h; subst h; exact H
  · split at h
    · simp only [Option.some.injEq] at h; subst h; exact H
    · split at h
      · simp only [Option.some.injEq] at h; subst h; exact SInv_fail (by decide) H
      · split at h
        · rename_i s; have := H.st; rw [show (core f).state = 0 from s] at this; omega
        · rename_i s; simp only [Option.some.injEq] at h; subst h; exact SInv_clientHello a H s
        · rename_i s; have := H.st; rw [show (core f).state = 2 from s] at this; omega
        · rename_i s; have := H.st; rw [show (core f).state = 110 from s] at this; omega
        · rename_i s; simp only [Option.some.injEq] at h; subst h; exact SInv_challengeRsp a H s
        · rename_i s; have := H.st; rw [show (core f).state = 4 from s] at this; omega
        · rename_i s; simp only [Option.some.injEq] at h; subst h; exact SInv_passwordCase a H s hc
        · rename_i s; have := H.st; rw [show (core f).state = 6 from s] at this; omega
        · rename_i s
          split at h
          · simp only [Option.some.injEq] at h; subst h
            exact ⟨H.srv, H.uc, H.rp, H.d2, H.ch, by simp [core, outFinish, stPass], by simp [core, outFinish, stPass], H.rsp, H.ver,
              by simp [core, outFinish, stPass], fun _ => H.fin (.inl s), by simp [core, outFinish, stPass]⟩
          · simp only [Option.some.injEq] at h; subst h; exact H
        · cases h

end Gensio.Certauth
