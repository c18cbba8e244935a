import Verif.Lemmas.CertauthSrv

/-!
# Runs of the authentication filter
-/
namespace Gensio.Certauth

theorem core_tr {f g : F} (h : core g = core f) : g.tr = f.tr := congrArg Core.tr h
theorem W.tr {f g : F} (h : W f g) : g.tr = f.tr := core_tr h.core

/-! ## What happened is not forgotten -/

theorem tr_elem (C : Crypto) (f : F) : f.tr <:+ (elemDone C f).tr := by
  have key : ∀ (k : Core), core (elemDone C f) = k → (elemDone C f).tr = k.tr := by rintro _ rfl; rfl
  rcases elem_core C f with e | ⟨_, _, e⟩ | ⟨_, _, e⟩ | ⟨_, c, svc, ok, _, e⟩ | ⟨_, _, c, e⟩ | ⟨_, _, _, e⟩
  all_goals rw [key _ e]; dsimp only
  all_goals first | exact List.suffix_cons _ _ | exact (List.suffix_cons _ _).trans (List.suffix_cons _ _)

theorem tr_fail (f : F) (e : Nat) : (fail f e).1.tr = f.tr := finish_tr _
theorem tr_ask (f : F) (n : Nat) : (askPassword f n).1.tr = f.tr := congrArg Core.tr (ask_core f n)
theorem tr_try (f : F) : (tryPassword f).1.tr = f.tr := tr_ask _ _

theorem tr_hello (f : F) (a : Ans) : f.tr <:+ (helloAuth f a).tr := by
  have : (helloAuth f a).tr = (core (helloAuth f a)).tr := rfl
  rcases hello_core f a with e | ⟨_, e⟩
  · rw [this, e]; exact List.suffix_refl _
  · rw [this, e]; exact List.suffix_cons _ _

theorem tr_authBegin (f : F) (n : Nat) : (authBegin f n).2.tr = .authBegin n :: f.tr := by
  unfold authBegin
  dsimp only
  repeat' split
  all_goals rfl

theorem tr_clientHello (f : F) (a : Ans) : f.tr <:+ (clientHello f a).1.tr := by
  have h1 : f.tr <:+ (authBegin (helloAuth f a) a.authBegin).2.tr := by
    rw [tr_authBegin]; exact (tr_hello f a).trans (List.suffix_cons _ _)
  unfold clientHello
  split
  · exact List.suffix_refl _
  · split
    · exact List.suffix_refl _
    · dsimp only
      split
      · rw [finish_tr]; exact h1
      · generalize authBegin (helloAuth f a) a.authBegin = x at h1
        have w1 : W x.2 (writeElem (writeByte { x.2 with writeBuf := [] } stServerHello) 100
            (u16 (writeByte { x.2 with writeBuf := [] } stServerHello).myVersion)) :=
          ((W.buf _).trans (W_writeByte _ _)).trans (W_writeElem _ _ _)
        generalize writeElem (writeByte { x.2 with writeBuf := [] } stServerHello) 100
            (u16 (writeByte { x.2 with writeBuf := [] } stServerHello).myVersion) = y at w1
        rw [← w1.tr] at h1
        split
        · have w2 : W y (writeU16 (writeByte y 103) (y.challenge.getD []).length) := (W_writeByte _ _).trans (W_write _ _)
          show f.tr <:+ (writeU16 (writeByte y 103) (y.challenge.getD []).length).tr
          rw [w2.tr]; exact h1
        · rename_i c hc
          generalize hz : ({ y with challenge := some c, tr := .challenge c :: y.tr } : F) = z
          have w2 : W z (writeElem z 103 c) := W_writeElem _ _ _
          generalize hq : writeElem z 103 c = q at w2
          have w3 : W z (if 2 ≤ q.version then writeOpt q 112 q.aux else q) := by
            split
            · exact w2.trans (W_writeOpt _ _ _)
            · exact w2
          have w4 := w3.trans (W_writeByte _ 200)
          show f.tr <:+ (writeByte (if 2 ≤ q.version then writeOpt q 112 q.aux else q) 200).tr
          rw [w4.tr, ← hz]
          exact h1.trans (List.suffix_cons _ _)

theorem tr_precert (f : F) (n : Nat) : f.tr <:+ (precert f n).2.tr := by
  unfold precert
  dsimp only
  repeat' split
  all_goals first | exact List.suffix_refl _ | exact List.suffix_cons _ _

theorem tr_verifyCert (C : Crypto) (f : F) (c n : Nat) : f.tr <:+ (verifyCert C f c n).1.tr := by
  unfold verifyCert
  dsimp only
  generalize (if n = geNotsup then (if C.verify c ≠ 0 then geNotsup else 0) else n) = rv
  split <;> exact List.suffix_cons _ _

theorem tr_challengeRsp (C : Crypto) (f : F) (a : Ans) : f.tr <:+ (challengeRsp C f a).1.tr := by
  unfold challengeRsp
  split
  · rw [tr_try]; exact List.suffix_refl _
  · split
    · split
      · rw [tr_fail]; exact List.suffix_refl _
      · rw [tr_try]; exact List.suffix_refl _
    · split
      · rw [tr_fail]; exact List.suffix_refl _
      · dsimp only
        have h1 := tr_precert f a.precert
        split
        · rw [finish_tr]; exact h1
        · rename_i c _ _ _
          have h2 := h1.trans (tr_verifyCert C (precert f a.precert).2 c a.postcert)
          generalize verifyCert C (precert f a.precert).2 c a.postcert = y at h2
          repeat' split
          all_goals first
            | (rw [tr_ask]; exact h2)
            | (rw [tr_try]; exact h2)
            | (rw [tr_fail]; exact h2)

theorem tr_passwordAns (f : F) (n : Nat) : (passwordAns f n).tr = f.tr := by
  unfold passwordAns
  repeat' split
  all_goals rfl

theorem tr_passwordCase (f : F) (a : Ans) : f.tr <:+ (passwordCase f a).1.tr := by
  unfold passwordCase
  split
  · rw [tr_fail]; exact List.suffix_refl _
  · split
    · split
      · rw [check2fa_tr]; exact List.suffix_cons _ _
      · rw [finish_tr]; exact List.suffix_refl _
    · split
      · rw [tr_fail]; exact List.suffix_refl _
      · split
        · rw [finish_tr]; exact List.suffix_refl _
        · split
          · rw [finish_tr]; exact List.suffix_refl _
          · dsimp only
            split
            · rw [finish_tr, tr_passwordAns]; exact List.suffix_cons _ _
            · rw [check2fa_tr, tr_passwordAns]
              exact (List.suffix_cons _ _).trans (List.suffix_cons _ _)

/-- A server, or a filter in one of the states of a server. -/
def SrvSt (f : F) : Prop := f.state = 1 ∨ f.state = 3 ∨ f.state = 5 ∨ f.state = 107 ∨ f.state = 108 ∨ f.state = 109

theorem tr_conn {C : Crypto} {f : F} {t : Bool} {a : Ans} {x : F × Rv} (hs : SrvSt f) (h : tryConnect C f t a = some x) :
    f.tr <:+ x.1.tr := by
  unfold tryConnect at h
  unfold SrvSt at hs
  split at h
  · simp only [Option.some.injEq] at h; subst h; exact List.suffix_refl _
  · split at h
    · simp only [Option.some.injEq] at h; subst h; exact List.suffix_refl _
    · split at h
      · simp only [Option.some.injEq] at h; subst h; rw [tr_fail]; exact List.suffix_refl _
      · split at h
        · omega
        · simp only [Option.some.injEq] at h; subst h; exact tr_clientHello _ _
        · omega
        · omega
        · simp only [Option.some.injEq] at h; subst h; exact tr_challengeRsp _ _ _
        · omega
        · simp only [Option.some.injEq] at h; subst h; exact tr_passwordCase _ _
        · omega
        · split at h <;> (simp only [Option.some.injEq] at h; subst h; exact List.suffix_refl _)
        · cases h

theorem tr_recv {C : Crypto} {f : F} {d : List UInt8} {x : F × List UInt8 × Nat} (h : llWrite C f d = some x)
    (ps : f.pendingErr = 0 → PS f) : f.tr <:+ x.1.tr :=
  (recv_ind (P := fun g => f.tr <:+ g.tr) (fun a b e p => by rw [core_tr e]; exact p) (fun g _ p => p.trans (tr_elem C g))
    (fun a b _ _ e p => by
      have : b.tr = a.tr := congrArg Core.tr e
      rw [this]; exact p) f d x h ps (List.suffix_refl _)).1

theorem Clean.suffix {r d : Bool} {l m : List Ev} (h : Clean r d m) (s : l <:+ m) : Clean r d l :=
  fun e he => h e (s.mem he)

/-! ## The handshake does not touch the parser, and keeps to the write buffer -/

/-- The part that the handshake leaves alone. -/
def pp (f : F) : (Bool × Bool × Nat × List UInt8) × Nat × Nat × Nat × Bool :=
  ((f.b1, f.b2, f.currLen, f.readBuf), f.currMsg, f.currElem, f.writePos, f.isClient)

/-- It is left alone, and the write buffer does not overflow. -/
def K (f g : F) : Prop := pp g = pp f ∧ (f.writeBuf.length ≤ dataSize → g.writeBuf.length ≤ dataSize)

theorem K.rfl {f : F} : K f f := ⟨_root_.rfl, id⟩
theorem K.trans {f g h : F} (a : K f g) (b : K g h) : K f h := ⟨b.1.trans a.1, fun x => b.2 (a.2 x)⟩

theorem K.brk {f g : F} (h : K f g) (s : Nat) : K f (Certauth.brk { g with state := s }).1 := h
theorem K.perr {f g : F} (h : K f g) (e : Nat) : K f { g with pendingErr := e } := h
theorem K.st {f g : F} (h : K f g) (s : Nat) : K f { g with state := s } := h

theorem K_write (f : F) (d : List UInt8) : K f (write f d) := by
  unfold write
  split
  · exact .rfl
  · refine ⟨_root_.rfl, fun _ => ?_⟩
    simp only [List.length_append]; omega
theorem K_writeByte (f : F) (v : Nat) : K f (writeByte f v) := K_write _ _
theorem K_writeElem (f : F) (t : Nat) (d : List UInt8) : K f (writeElem f t d) :=
  ((K_writeByte f t).trans (K_write _ _)).trans (K_write _ _)
theorem K_writeOpt (f : F) (t : Nat) (d : Option (List UInt8)) : K f (writeOpt f t d) := by
  unfold writeOpt
  split
  · exact .rfl
  · split
    · exact .rfl
    · exact K_writeElem _ _ _
theorem K_addDummy (f : F) (n : Nat) : K f (addDummy f n) := K_writeElem _ _ _
theorem K_addCert {C : Crypto} {f g : F} {c : Nat} (h : addCert C f c = some g) : K f g := by
  unfold addCert at h
  dsimp only at h
  split at h
  · cases h
  · rename_i hl
    simp only [Option.some.injEq] at h
    subst h
    refine (K_writeByte f 105).trans ⟨_root_.rfl, fun _ => ?_⟩
    simp only [List.length_append, u16, List.length_cons, List.length_nil] at hl ⊢
    omega
theorem K_addRsp {f : F} {s : Except Nat (List UInt8)} {x : F × Nat} (h : addRsp f s = some x) : K f x.1 := by
  unfold addRsp at h
  dsimp only at h
  split at h
  · cases h
  · rename_i hl
    split at h
    · simp only [Option.some.injEq] at h; subst h
      refine (K_writeByte f 104).trans ⟨_root_.rfl, fun _ => ?_⟩
      simp only [List.length_append, List.length_cons, List.length_nil] at hl ⊢
      omega
    · split at h <;> (simp only [Option.some.injEq] at h; subst h)
      · refine (K_writeByte f 104).trans ⟨_root_.rfl, fun _ => ?_⟩
        simp only [List.length_append, List.length_cons, List.length_nil] at hl ⊢
        omega
      · rename_i h2
        refine (K_writeByte f 104).trans ⟨_root_.rfl, fun _ => ?_⟩
        simp only [List.length_append, u16, List.length_cons, List.length_nil] at hl h2 ⊢
        omega

theorem K_clear (f : F) : K f { f with writeBuf := [] } := ⟨_root_.rfl, fun _ => Nat.zero_le _⟩

theorem K_sendServerDone (f : F) : K f (sendServerDone f) := by
  unfold sendServerDone
  dsimp only
  refine K.trans (g := if f.result = 0 then { f with result := rFailure } else f) ?_ ?_
  · split
    · exact ⟨_root_.rfl, id⟩
    · exact .rfl
  · generalize (if f.result = 0 then { f with result := rFailure } else f) = g
    exact (((K_clear g).trans (K_writeByte _ _)).trans (K_writeElem _ _ _)).trans (K_writeByte _ _)

theorem K_finish (f : F) : K f (finishResult f).1 := by
  have h := K_sendServerDone f
  unfold finishResult
  generalize sendServerDone f = g at h
  dsimp only
  split
  · exact h.st _
  · exact h.st _
theorem K_fail (f : F) (e : Nat) : K f (fail f e).1 := (K.rfl.perr e).trans (K_finish _)

theorem K_ask (f : F) (n : Nat) : K f (askPassword f n).1 := by
  unfold askPassword
  dsimp only
  exact ((((K_clear f).trans (K_writeByte _ _)).trans (K_writeElem _ _ _)).trans (K_writeByte _ _)).brk _
theorem K_try (f : F) : K f (tryPassword f).1 := K_ask _ _

theorem K_clientStart (f : F) : K f (clientStart f).1 :=
  (((((((K_clear f).trans (K_writeByte _ _)).trans (K_writeElem _ _ _)).trans (K_writeOpt _ _ _)).trans (K_writeOpt _ _ _)).trans
    (K_writeByte _ _))).brk _

theorem K_clientHello (f : F) (a : Ans) : K f (clientHello f a).1 := by
  have h1 : K f (authBegin (helloAuth f a) a.authBegin).2 := by
    unfold authBegin helloAuth setDigest
    dsimp only
    repeat' split
    all_goals exact ⟨_root_.rfl, id⟩
  unfold clientHello
  split
  · exact ⟨_root_.rfl, id⟩
  · split
    · exact ⟨_root_.rfl, id⟩
    · dsimp only
      split
      · exact h1.trans (K_finish _)
      · generalize authBegin (helloAuth f a) a.authBegin = x at h1
        have w1 : K x.2 (writeElem (writeByte { x.2 with writeBuf := [] } stServerHello) 100
            (u16 (writeByte { x.2 with writeBuf := [] } stServerHello).myVersion)) :=
          ((K_clear _).trans (K_writeByte _ _)).trans (K_writeElem _ _ _)
        generalize writeElem (writeByte { x.2 with writeBuf := [] } stServerHello) 100
            (u16 (writeByte { x.2 with writeBuf := [] } stServerHello).myVersion) = y at w1
        have h2 := h1.trans w1
        split
        · have h3 := ((h2.trans (K_writeByte _ 103)).trans (K_write _ (u16 (y.challenge.getD []).length))).perr geIoerr
          exact h3
        · rename_i c hc
          have h3 : K f ({ y with challenge := some c, tr := .challenge c :: y.tr } : F) := h2.trans ⟨_root_.rfl, id⟩
          generalize ({ y with challenge := some c, tr := .challenge c :: y.tr } : F) = z at h3
          have w2 : K f (writeElem z 103 c) := h3.trans (K_writeElem _ _ _)
          generalize writeElem z 103 c = q at w2
          have w3 : K f (if 2 ≤ q.version then writeOpt q 112 q.aux else q) := by
            split
            · exact w2.trans (K_writeOpt _ _ _)
            · exact w2
          exact (w3.trans (K_writeByte _ 200)).brk _

theorem K_serverHello (f : F) (a : Ans) : K f (serverHello f a).1 := by
  unfold serverHello outFinish brk
  repeat' split
  all_goals exact ⟨_root_.rfl, id⟩

theorem K_challengeRsp (C : Crypto) (f : F) (a : Ans) : K f (challengeRsp C f a).1 := by
  unfold challengeRsp
  split
  · exact K_try _
  · split
    · split
      · exact K_fail _ _
      · exact K_try _
    · split
      · exact K_fail _ _
      · dsimp only
        have h1 : K f (precert f a.precert).2 := by
          unfold precert
          dsimp only
          repeat' split
          all_goals exact ⟨_root_.rfl, id⟩
        split
        · exact h1.trans (K_finish _)
        · rename_i c _ _ _
          have h2 : K f (verifyCert C (precert f a.precert).2 c a.postcert).1 := by
            refine h1.trans ?_
            generalize (precert f a.precert).2 = y
            unfold verifyCert
            dsimp only
            generalize (if a.postcert = geNotsup then (if C.verify c ≠ 0 then geNotsup else 0) else a.postcert) = rv
            split <;> exact ⟨_root_.rfl, id⟩
          generalize verifyCert C (precert f a.precert).2 c a.postcert = y at h2
          have h3 : ∀ v, K f { y.1 with result := v } := fun v => h2.trans ⟨_root_.rfl, id⟩
          have h4 : ∀ v, K f (tryPassword { y.1 with result := v }).1 := fun v => (h3 v).trans (K_try _)
          have h5 : ∀ v n, K f (askPassword { y.1 with result := v } n).1 := fun v n => (h3 v).trans (K_ask _ _)
          have h6 : K f (tryPassword y.1).1 := h2.trans (K_try _)
          have h7 : ∀ e, K f (fail y.1 e).1 := fun e => h2.trans (K_fail _ _)
          generalize hy : y.1 = y1 at *
          split
          · split
            · split
              · split
                · exact h5 _ _
                · exact h4 _
              · exact h4 _
            · split
              · exact h7 _
              · split
                · split
                  · exact h5 _ _
                  · exact h4 _
                · exact h6
          · exact h6

theorem K_check2fa (f : F) (n : Nat) : K f (check2fa f n).1 := by
  unfold check2fa
  dsimp only
  refine K.trans ?_ (K_finish _)
  repeat' split
  all_goals exact ⟨_root_.rfl, id⟩

theorem K_passwordCase (f : F) (a : Ans) : K f (passwordCase f a).1 := by
  unfold passwordCase
  split
  · exact K_fail _ _
  · split
    · split
      · exact K.trans (g := { f with result := 0 }) ⟨_root_.rfl, id⟩ (K_check2fa _ _)
      · exact K_finish _
    · split
      · exact K_fail _ _
      · split
        · exact K_finish _
        · rename_i pw _
          split
          · exact K_finish _
          · dsimp only
            have h : K f (passwordAns { f with tr := .password pw a.password :: f.tr, password := some (List.replicate pw.length 0) } a.password) := by
              unfold passwordAns
              repeat' split
              all_goals exact ⟨_root_.rfl, id⟩
            split
            · exact h.trans (K_finish _)
            · exact h.trans (K_check2fa _ _)

theorem K_clientDelay {C : Crypto} {f : F} {a : Ans} {t : Bool} {x : F × Rv} (h : clientDelay C f a t = some x) : K f x.1 := by
  unfold clientDelay at h
  split at h
  · simp only [Option.some.injEq] at h
    subst h
    split
    · exact K_fail _ _
    · exact .rfl
  · dsimp only at h
    have h1 : K f (writeByte { setDigest f with writeBuf := [] } stChalRsp) :=
      K.trans (g := setDigest f) ⟨_root_.rfl, id⟩ ((K_clear _).trans (K_writeByte _ _))
    generalize writeByte { setDigest f with writeBuf := [] } stChalRsp = g at h h1
    simp only [Option.pure_def, Option.bind_eq_bind, Option.bind_eq_some_iff] at h
    obtain ⟨p, hp, q, hq, h⟩ := h
    have h2 : K f p := by
      split at hp
      · exact h1.trans (K_addCert hp)
      · simp only [Option.some.injEq] at hp; subst hp; exact h1.trans (K_addDummy _ _)
    have h3 : K f q.1 := by
      split at hq
      · exact h2.trans (K_addRsp hq)
      · simp only [Option.some.injEq] at hq
        have h4 := h2.trans (K_addDummy p 256)
        generalize addDummy p 256 = z at hq h4
        subst hq; exact h4
    split at h
    · simp only [Option.some.injEq] at h
      subst h
      exact h3.trans (K_fail _ _)
    · simp only [Option.some.injEq] at h
      subst h
      have h4 : K f (if 2 ≤ q.1.version then writeOpt q.1 112 q.1.aux else q.1) := by
        split
        · exact h3.trans (K_writeOpt _ _ _)
        · exact h3
      exact (h4.trans (K_writeByte _ 200)).brk _

theorem K_send2fa (f : F) (a : Ans) : K f (send2fa f a).1 := by
  unfold send2fa
  dsimp only
  have fin : ∀ g, K f g → K f (brk { writeByte g 200 with state := stServerDone }).1 :=
    fun g h => (h.trans (K_writeByte _ 200)).brk _
  split
  · split
    · exact K_fail _ _
    · split
      · exact (K_writeElem _ _ _).trans (K_finish _)
      · exact fin _ (K_writeElem _ _ _)
  · split
    · exact fin _ .rfl
    · split
      · exact K_fail _ _
      · generalize (if a.req2fa.1 = 0 then a.req2fa.2 else []) = v
        split
        · exact K_fail _ _
        · split
          · exact (K_writeElem _ _ _).trans (K_finish _)
          · exact fin _ (K_writeElem _ _ _)

theorem K_passwordReq (f : F) (a : Ans) : K f (passwordReq f a).1 := by
  unfold passwordReq
  split
  · exact K_fail _ _
  · dsimp only
    split
    · exact (((K_clear f).trans (K_writeByte _ _)).trans (K_addDummy _ _)).trans (K_send2fa _ _)
    · split
      · exact (((K_clear f).trans (K_writeByte _ _)).trans (K_writeElem _ _ _)).trans (K_send2fa _ _)
      · split
        · split
          · exact (K_clear f).trans (K_fail _ _)
          · refine K.trans ?_ (K_send2fa _ _)
            have h := ((K_clear f).trans (K_writeByte _ stPassword)).trans (K_writeElem _ 108 (if a.reqPassword.1 = 0 then (padPassword a.reqPassword.2).take (f.password.getD []).length
              else List.replicate (f.password.getD []).length 0))
            generalize writeElem _ _ _ = g at h
            exact h
        · exact (((K_clear f).trans (K_writeByte _ _)).trans (K_writeElem _ _ _)).trans (K_send2fa _ _)

/-- What a call of the handshake leaves alone. -/
theorem K_conn {C : Crypto} {f : F} {t : Bool} {a : Ans} {x : F × Rv} (h : tryConnect C f t a = some x) : K f x.1 := by
  unfold tryConnect at h
  split at h
  · simp only [Option.some.injEq] at h; subst h; exact .rfl
  · split at h
    · simp only [Option.some.injEq] at h; subst h; exact .rfl
    · split at h
      · simp only [Option.some.injEq] at h; subst h; exact K_fail _ _
      · split at h
        · simp only [Option.some.injEq] at h; subst h; exact K_clientStart _
        · simp only [Option.some.injEq] at h; subst h; exact K_clientHello _ _
        · simp only [Option.some.injEq] at h; subst h; exact K_serverHello _ _
        · exact K_clientDelay h
        · simp only [Option.some.injEq] at h; subst h; exact K_challengeRsp _ _ _
        · simp only [Option.some.injEq] at h; subst h; exact K_passwordReq _ _
        · simp only [Option.some.injEq] at h; subst h; exact K_passwordCase _ _
        · simp only [Option.some.injEq] at h; subst h
          unfold serverDone outFinish
          repeat' split
          all_goals exact ⟨_root_.rfl, id⟩
        · split at h <;> (simp only [Option.some.injEq] at h; subst h; exact ⟨_root_.rfl, id⟩)
        · cases h

theorem K.PS {f g : F} (h : K f g) (p : PS f) : PS g := by
  have h := h.1
  simp only [pp, Prod.mk.injEq] at h
  unfold Certauth.PS at *
  rw [h.1.1, h.1.2.1, h.1.2.2.1, h.1.2.2.2]
  exact p

/-! ## Runs of a server -/

/-- What holds between calls of a server. -/
def SGood (u r d : Bool) (f : F) : Prop :=
  (f.pendingErr = 0 → PS f) ∧ SrvSt f ∧ f.isClient = false ∧ (Clean r d f.tr → SInv u r d (core f))

theorem PS_init (c : Cfg) : PS (init c) := ⟨fun h => by simp [init] at h, fun _ => rfl⟩

theorem SGood_init (c : Cfg) (h : c.isClient = false) : SGood c.useChildAuth c.requirePassword c.do2fa (init c) := by
  refine ⟨fun _ => PS_init c, ?_, by simp [init, h], fun _ => ?_⟩
  · left; simp [init, h, stClientHello]
  · constructor
    all_goals simp [init, h, core, stClientHello]

/-- The states of a server. -/
theorem SrvSt_conn {C : Crypto} {f : F} {t : Bool} {a : Ans} {x : F × Rv} (hs : SrvSt f) (h : tryConnect C f t a = some x) :
    SrvSt x.1 := by
  have fin : ∀ g, SrvSt (finishResult g).1 := by
    intro g
    have e : (finishResult g).1.state = (core (finishResult g).1).state := rfl
    unfold SrvSt
    rw [e]
    rcases finish_core g with ⟨_, e⟩ | e <;> (rw [e]; simp)
  have fl : ∀ g e, SrvSt (fail g e).1 := by
    intro g e
    unfold fail
    exact fin _
  have chk : ∀ g n, SrvSt (check2fa g n).1 := by
    intro g n
    unfold check2fa
    exact fin _
  have ask : ∀ g n, SrvSt (askPassword g n).1 := by
    intro g n
    have e : (askPassword g n).1.state = (core (askPassword g n).1).state := rfl
    unfold SrvSt
    rw [e, ask_core]; simp
  unfold tryConnect at h
  split at h
  · simp only [Option.some.injEq] at h; subst h; exact hs
  · split at h
    · simp only [Option.some.injEq] at h; subst h; exact hs
    · split at h
      · simp only [Option.some.injEq] at h; subst h; exact fin _
      · unfold SrvSt at hs
        split at h
        · omega
        · rename_i s
          simp only [Option.some.injEq] at h; subst h
          unfold clientHello
          split
          · exact .inl s
          · split
            · exact .inl s
            · dsimp only
              split
              · exact fin _
              · have h1 : (authBegin (helloAuth f a) a.authBegin).2.state = 1 := by
                  have : (helloAuth f a).state = 1 := by
                    unfold helloAuth setDigest
                    dsimp only
                    split <;> exact s
                  unfold authBegin
                  dsimp only
                  repeat' split
                  all_goals exact this
                generalize (authBegin (helloAuth f a) a.authBegin).2 = y at h1
                have w1 : W y (writeElem (writeByte { y with writeBuf := [] } stServerHello) 100
                    (u16 (writeByte { y with writeBuf := [] } stServerHello).myVersion)) :=
                  ((W.buf _).trans (W_writeByte _ _)).trans (W_writeElem _ _ _)
                generalize writeElem (writeByte { y with writeBuf := [] } stServerHello) 100
                    (u16 (writeByte { y with writeBuf := [] } stServerHello).myVersion) = z at w1
                have hz : z.state = 1 := (congrArg Core.state w1.core).trans h1
                split
                · left
                  have w2 : W z (writeU16 (writeByte z 103) (z.challenge.getD []).length) := (W_writeByte _ _).trans (W_write _ _)
                  exact (congrArg Core.state w2.core).trans hz
                · generalize writeByte _ 200 = q
                  exact .inr (.inl rfl)
        · omega
        · omega
        · simp only [Option.some.injEq] at h; subst h
          unfold challengeRsp
          split
          · exact ask _ _
          · split
            · split
              · exact fin _
              · exact ask _ _
            · split
              · exact fin _
              · dsimp only
                split
                · exact fin _
                · rename_i c _ _ _
                  generalize (verifyCert C (precert f a.precert).2 c a.postcert).1 = y
                  generalize (verifyCert C (precert f a.precert).2 c a.postcert).2 = rv
                  split
                  · split
                    · split
                      · split <;> exact ask _ _
                      · exact ask _ _
                    · split
                      · exact fin _
                      · split
                        · split <;> exact ask _ _
                        · exact ask _ _
                  · exact ask _ _
        · omega
        · simp only [Option.some.injEq] at h; subst h
          unfold passwordCase
          split
          · exact fl _ _
          · split
            · split
              · exact chk _ _
              · exact fin _
            · split
              · exact fl _ _
              · split
                · exact fin _
                · split
                  · exact fin _
                  · dsimp only
                    split
                    · exact fin _
                    · exact chk _ _
        · omega
        · split at h
          · simp only [Option.some.injEq] at h; subst h
            exact .inr (.inr (.inr (.inr (.inl rfl))))
          · simp only [Option.some.injEq] at h; subst h; exact .inr (.inr (.inr (.inl (by assumption))))
        · cases h

/-- Data from the lower layer keeps it. -/
theorem SGood_recv {C : Crypto} {u r d : Bool} {f : F} {b : List UInt8} {x : F × List UInt8 × Nat} (h : llWrite C f b = some x)
    (p : SGood u r d f) : SGood u r d x.1 := by
  obtain ⟨p1, p2, p3, p4⟩ := p
  have h1 := recv_ind (P := fun g => SrvSt g ∧ g.isClient = false ∧ (Clean r d g.tr → SInv u r d (core g)))
    (fun f g e q => by
      have e1 : g.state = f.state := congrArg Core.state e
      have e2 : g.isClient = f.isClient := congrArg Core.isClient e
      have e3 : g.tr = f.tr := core_tr e
      unfold SrvSt
      rw [e1, e2, e3, e]
      exact q)
    (fun g fl q => by
      have e : core (elemDone C g) = core (elemDone C g) := rfl
      have e1 : (elemDone C g).state = g.state ∧ (elemDone C g).isClient = g.isClient := by
        have key : ∀ (k : Core), core (elemDone C g) = k → (elemDone C g).state = k.state ∧ (elemDone C g).isClient = k.isClient := by
          rintro _ rfl; exact ⟨rfl, rfl⟩
        rcases elem_core C g with e | ⟨_, _, e⟩ | ⟨_, _, e⟩ | ⟨_, c, svc, ok, _, e⟩ | ⟨_, _, c, e⟩ | ⟨_, _, _, e⟩
        all_goals exact key _ e
      refine ⟨?_, e1.2.trans q.2.1, SInv_elem g fl q.2.2⟩
      unfold SrvSt
      rw [e1.1]
      exact q.1)
    (fun f g hc _ _ q => by rw [q.2.1] at hc; cases hc) f b x h p1 ⟨p2, p3, p4⟩
  exact ⟨h1.2, h1.1⟩

/-- A call keeps it. -/
theorem SGood_step {C : Crypto} {u r d : Bool} {f g : F} {i : In} (h : step C f i = some g) (p : SGood u r d f) : SGood u r d g := by
  cases i with
  | recv b =>
    obtain ⟨x, hx, rfl⟩ := Option.map_eq_some_iff.1 h
    exact SGood_recv hx p
  | conn t a =>
    obtain ⟨x, hx, rfl⟩ := Option.map_eq_some_iff.1 h
    obtain ⟨p1, p2, p3, p4⟩ := p
    have k := K_conn hx
    refine ⟨?_, SrvSt_conn p2 hx, ?_, fun hc => SInv_conn (p4 (hc.suffix (tr_conn p2 hx))) hx hc⟩
    · intro e
      by_cases e0 : f.pendingErr = 0
      · exact k.PS (p1 e0)
      · exfalso
        unfold tryConnect at hx
        rw [if_pos e0] at hx
        simp only [Option.some.injEq] at hx
        subst hx
        exact e0 e
    · have := k.1
      simp only [pp, Prod.mk.injEq] at this
      exact this.2.2.2.2.trans p3
  | send n =>
    obtain ⟨x, hx, rfl⟩ := Option.map_eq_some_iff.1 h
    obtain ⟨p1, p2, p3, p4⟩ := p
    have e := send_core hx
    have e0 : x.1.pendingErr = f.pendingErr ∧ (PS f → PS x.1) := by
      unfold ulWrite at hx
      split at hx
      · simp only [Option.some.injEq] at hx; subst hx; exact ⟨rfl, id⟩
      · split at hx
        · cases hx
        · dsimp only at hx
          split at hx <;> (simp only [Option.some.injEq] at hx; subst hx; exact ⟨rfl, id⟩)
    have e1 : x.1.state = f.state := congrArg Core.state e
    have e2 : x.1.isClient = f.isClient := congrArg Core.isClient e
    have e3 : x.1.tr = f.tr := core_tr e
    refine ⟨fun h => e0.2 (p1 (e0.1 ▸ h)), ?_, e2.trans p3, ?_⟩
    · unfold SrvSt; rw [e1]; exact p2
    · rw [e3, e]; exact p4

theorem SGood_run {C : Crypto} {u r d : Bool} {f g : F} {l : List In} (h : run C f l = some g) (p : SGood u r d f) : SGood u r d g := by
  induction l generalizing f with
  | nil => simp only [run, Option.some.injEq] at h; subst h; exact p
  | cons i l ih =>
    simp only [run] at h
    obtain ⟨x, hx, h⟩ := Option.bind_eq_some_iff.1 h
    exact ih h (SGood_step hx p)

attribute [local irreducible] write sendServerDone in
/-- When the handshake of any filter is done: the state, and a message had come. -/
theorem done_state {C : Crypto} {f : F} {t : Bool} {a : Ans} {g : F} (h : tryConnect C f t a = some (g, .done 0)) :
    g.state = 108 ∧ g.gotMsg = true ∧ g.pendingErr = 0 ∧ (f.state = 107 ∨ g.result = 1) := by
  have fin : ∀ f' g', finishResult f' = (g', .done 0) → False := by
    intro f' g' h
    obtain ⟨w, p, s, e, h1, _⟩ := finishResult_spec f'
    rw [h] at h1
    rcases h1 with ⟨_, _, e⟩ | ⟨e1, _, e⟩
    · cases e
    · simp only [Rv.done.injEq] at e; exact e1 e.symm
  have br : ∀ f' g', brk f' = (g', .done 0) → False := by
    intro f' g' h
    simp [brk] at h
  unfold tryConnect at h
  split at h
  · rename_i hp
    simp only [outFinish, Option.some.injEq, Prod.mk.injEq, Rv.done.injEq] at h
    exact absurd h.2 hp
  · split at h
    · simp at h
    · rename_i hg
      split at h
      · simp only [Option.some.injEq] at h; exact (fin _ _ h).elim
      · rename_i ht
        split at h
        · simp only [Option.some.injEq] at h; exact (br _ _ h).elim
        · simp only [Option.some.injEq] at h
          unfold clientHello at h
          dsimp only at h
          repeat' split at h
          · exact (br _ _ h).elim
          · exact (br _ _ h).elim
          · exact (fin _ _ h).elim
          · exact (br _ _ h).elim
          · exact (br _ _ h).elim
          · exact (br _ _ h).elim
        · rename_i hs
          simp only [Option.some.injEq] at h
          have hgm : f.gotMsg = true := by
            rw [hs] at ht
            simp only [stDelay] at ht
            cases t <;> simp_all
          unfold serverHello outFinish at h
          split at h
          · split at h
            · simp [geAuthreject] at h
            · rename_i hr
              simp only [Prod.mk.injEq, Rv.done.injEq] at h
              rw [← h.1]; exact ⟨rfl, hgm, h.2, .inr (by simpa [rSuccess] using hr)⟩
          · split at h
            · exact (br _ _ h).elim
            · split at h
              · exact (br _ _ h).elim
              · simp at h
        · unfold clientDelay at h
          split at h
          · simp only [Option.some.injEq] at h
            split at h
            · exact (fin _ _ h).elim
            · simp at h
          · dsimp only at h
            simp only [Option.pure_def, Option.bind_eq_bind, Option.bind_eq_some_iff] at h
            obtain ⟨p, hp, q, hq, h⟩ := h
            split at h
            · simp only [Option.some.injEq] at h; exact (fin _ _ h).elim
            · simp only [Option.some.injEq] at h; exact (br _ _ h).elim
        · simp only [Option.some.injEq] at h
          unfold challengeRsp at h
          dsimp only at h
          have ask : ∀ f' n g', askPassword f' n = (g', .done 0) → False := fun f' n g' h => br _ _ h
          repeat' split at h
          all_goals first | exact (fin _ _ h).elim | exact (ask _ _ _ h).elim
        · simp only [Option.some.injEq] at h
          have s2 : ∀ f' a' g', send2fa f' a' = (g', .done 0) → False := by
            intro f' a' g' h
            unfold send2fa at h
            dsimp only at h
            repeat' split at h
            all_goals first | exact br _ _ h | exact fin _ _ h
          unfold passwordReq at h
          dsimp only at h
          repeat' split at h
          all_goals first | exact (s2 _ _ _ h).elim | exact (fin _ _ h).elim
        · simp only [Option.some.injEq] at h
          unfold passwordCase at h
          dsimp only at h
          repeat' split at h
          all_goals exact (fin _ _ h).elim
        · rename_i hs
          simp only [Option.some.injEq] at h
          have hgm : f.gotMsg = true := by
            rw [hs] at ht
            simp only [stDelay] at ht
            cases t <;> simp_all
          unfold serverDone outFinish at h
          split at h
          · simp [geDatamissing] at h
          · split at h
            · simp [geAuthreject] at h
            · rename_i hr
              simp only [Prod.mk.injEq, Rv.done.injEq] at h
              rw [← h.1]; exact ⟨rfl, hgm, h.2, .inr (by simpa [rSuccess] using hr)⟩
        · rename_i hs
          have hgm : f.gotMsg = true := by
            rw [hs] at ht
            simp only [stDelay] at ht
            cases t <;> simp_all
          split at h
          · simp only [Option.some.injEq, outFinish, Prod.mk.injEq, Rv.done.injEq] at h
            rw [← h.1]; exact ⟨rfl, hgm, h.2, .inl hs⟩
          · simp at h
        · cases h

end Gensio.Certauth
