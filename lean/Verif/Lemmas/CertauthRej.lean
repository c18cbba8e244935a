import Verif.Lemmas.CertauthRun

/-!
# Rejections, and what a client believes
-/
namespace Gensio.Certauth

/-! ## Rejections -/

/-- The application rejected the other side. -/
def Rej (tr : List Ev) : Prop := Ev.authBegin 31 ∈ tr ∨ Ev.precert 31 ∈ tr

/-- An event that is not a rejection. -/
theorem Rej.of_cons {e : Ev} {l : List Ev} (h : Rej (e :: l)) (h1 : e ≠ .authBegin 31) (h2 : e ≠ .precert 31) : Rej l := by
  rcases h with h | h <;> rcases List.mem_cons.1 h with h | h
  · exact absurd h.symm h1
  · exact .inl h
  · exact absurd h.symm h2
  · exact .inr h

/-- A rejection is kept in mind. -/
def RP (f : F) : Prop := f.requirePassword = false ∧ (Rej f.tr → f.result = 3 ∧ f.state ≠ 1)

theorem RP_core {f g : F} (e : core g = core f) (h : RP f) : RP g := by
  unfold RP at *
  have e1 : g.requirePassword = f.requirePassword := congrArg Core.reqPw e
  have e2 : g.tr = f.tr := congrArg Core.tr e
  have e3 : g.result = f.result := congrArg Core.result e
  have e4 : g.state = f.state := congrArg Core.state e
  rw [e1, e2, e3, e4]; exact h

theorem RP_elem (C : Crypto) (f : F) (h : RP f) : RP (elemDone C f) := by
  have key : ∀ (k : Core), core (elemDone C f) = k → (elemDone C f).requirePassword = k.reqPw ∧ (elemDone C f).tr = k.tr ∧
      (elemDone C f).result = k.result ∧ (elemDone C f).state = k.state := by rintro _ rfl; exact ⟨rfl, rfl, rfl, rfl⟩
  unfold RP
  rcases elem_core C f with e | ⟨_, _, e⟩ | ⟨_, _, e⟩ | ⟨_, c, svc, ok, _, e⟩ | ⟨_, _, c, e⟩ | ⟨_, h2, _, e⟩
  all_goals obtain ⟨k1, k2, k3, k4⟩ := key _ e
  all_goals rw [k1, k2, k3, k4]
  · exact ⟨h.1, fun r => h.2 (r.of_cons (by simp) (by simp))⟩
  · exact ⟨h.1, fun r => h.2 (r.of_cons (by simp) (by simp))⟩
  · exact ⟨h.1, fun r => h.2 (r.of_cons (by simp) (by simp))⟩
  · exact ⟨h.1, fun r => h.2 ((r.of_cons (by simp) (by simp)).of_cons (by simp) (by simp))⟩
  · exact ⟨h.1, fun r => h.2 (r.of_cons (by simp) (by simp))⟩
  · refine ⟨h.1, fun r => ?_⟩
    have := (h.2 (r.of_cons (by simp) (by simp))).1
    omega

theorem RP_finish {f : F} (h : f.requirePassword = false ∧ (Rej f.tr → f.result = 3)) : RP (finishResult f).1 := by
  obtain ⟨w, p, s, e, h1, _⟩ := finishResult_spec f
  rw [e]
  refine ⟨h.1, fun r => ?_⟩
  have h3 := h.2 r
  dsimp only
  rw [if_neg (by omega)]
  refine ⟨h3, ?_⟩
  rcases h1 with ⟨_, h1, _⟩ | ⟨_, h1, _⟩ <;> (rw [h1]; decide)

theorem fail_err (f : F) (e : Nat) (he : e ≠ 0) : (fail f e).1.pendingErr ≠ 0 := by
  obtain ⟨w, p, s, e1, _, h⟩ := finishResult_spec { f with pendingErr := e }
  unfold fail
  rw [e1]
  exact h he

theorem finish_err (f : F) (h : f.pendingErr ≠ 0) : (finishResult f).1.pendingErr ≠ 0 := by
  obtain ⟨w, p, s, e1, _, h1⟩ := finishResult_spec f
  rw [e1]
  exact h1 h

theorem RP_ask {f : F} {n : Nat} (h : f.requirePassword = false ∧ (Rej f.tr → f.result = 3)) : RP (askPassword f n).1 := by
  have e := ask_core f n
  generalize (askPassword f n).1 = g at e
  have e1 : g.requirePassword = f.requirePassword := congrArg Core.reqPw e
  have e2 : g.tr = f.tr := congrArg Core.tr e
  have e3 : g.result = f.result := congrArg Core.result e
  have e4 : g.state = 5 := congrArg Core.state e
  unfold RP
  rw [e1, e2, e3, e4]
  exact ⟨h.1, fun r => ⟨h.2 r, by decide⟩⟩

theorem RP_clientHello {f : F} (a : Ans) (h : RP f) (s : f.state = 1) :
    (clientHello f a).1.pendingErr ≠ 0 ∨ RP (clientHello f a).1 := by
  have nr : ¬Rej f.tr := fun r => (h.2 r).2 s
  unfold clientHello
  split
  · exact .inl (show geDatamissing ≠ 0 by decide)
  · split
    · exact .inl (show geInval ≠ 0 by decide)
    · dsimp only
      have h1 : (helloAuth f a).requirePassword = false ∧ ¬Rej (helloAuth f a).tr := by
        have e : (helloAuth f a).requirePassword = (core (helloAuth f a)).reqPw ∧ (helloAuth f a).tr = (core (helloAuth f a)).tr := ⟨rfl, rfl⟩
        rw [e.1, e.2]
        rcases hello_core f a with e | ⟨_, e⟩
        · rw [e]; exact ⟨h.1, nr⟩
        · rw [e]; exact ⟨h.1, fun r => nr (r.of_cons (by simp) (by simp))⟩
      have h2 : (authBegin (helloAuth f a) a.authBegin).2.requirePassword = false ∧
          (Rej (authBegin (helloAuth f a) a.authBegin).2.tr → (authBegin (helloAuth f a) a.authBegin).2.result = 3) ∧
          ((authBegin (helloAuth f a) a.authBegin).1 = false → (authBegin (helloAuth f a) a.authBegin).2.pendingErr ≠ 0) := by
        generalize helloAuth f a = y at h1
        refine ⟨?_, ?_, ?_⟩
        · unfold authBegin
          dsimp only
          repeat' split
          all_goals exact h1.1
        · rw [tr_authBegin]
          intro r
          by_cases e : a.authBegin = 31
          · rw [e]; rfl
          · exact absurd (r.of_cons (by simpa using e) (by simp)) h1.2
        · unfold authBegin
          dsimp only
          split
          · simp
          · split
            · simp
            · split
              · exact fun _ => by assumption
              · simp
      generalize authBegin (helloAuth f a) a.authBegin = x at h2
      split
      · rename_i hx
        exact .inl (finish_err _ (h2.2.2 (by simpa using hx)))
      · have w1 : W x.2 (writeElem (writeByte { x.2 with writeBuf := [] } stServerHello) 100
            (u16 (writeByte { x.2 with writeBuf := [] } stServerHello).myVersion)) :=
          ((W.buf _).trans (W_writeByte _ _)).trans (W_writeElem _ _ _)
        generalize writeElem (writeByte { x.2 with writeBuf := [] } stServerHello) 100
            (u16 (writeByte { x.2 with writeBuf := [] } stServerHello).myVersion) = y at w1
        obtain ⟨w, p, rfl, _⟩ := w1
        split
        · exact .inl (show geIoerr ≠ 0 by decide)
        · rename_i c hc
          right
          generalize hz : ({ { x.2 with writeBuf := w, pendingErr := p } with challenge := some c, tr := .challenge c :: x.2.tr } : F) = z
          have w2 : W z (writeElem z 103 c) := W_writeElem _ _ _
          generalize hq : writeElem z 103 c = q at w2
          have w3 : W z (if 2 ≤ q.version then writeOpt q 112 q.aux else q) := by
            split
            · exact w2.trans (W_writeOpt _ _ _)
            · exact w2
          have w4 := w3.trans (W_writeByte _ 200)
          generalize writeByte (if 2 ≤ q.version then writeOpt q 112 q.aux else q) 200 = v at w4
          obtain ⟨w, p, rfl, _⟩ := w4
          subst hz
          exact ⟨h2.1, fun r => ⟨h2.2.1 (r.of_cons (by simp) (by simp)), show stChalRsp ≠ 1 by decide⟩⟩

theorem RP_challengeRsp (C : Crypto) {f : F} (a : Ans) (h : RP f) :
    (challengeRsp C f a).1.pendingErr ≠ 0 ∨ RP (challengeRsp C f a).1 := by
  have h0 : f.requirePassword = false ∧ (Rej f.tr → f.result = 3) := ⟨h.1, fun r => (h.2 r).1⟩
  unfold challengeRsp
  split
  · exact .inr (RP_ask h0)
  · split
    · split
      · exact .inl (fail_err _ _ (by decide))
      · exact .inr (RP_ask h0)
    · rename_i c hc
      split
      · exact .inl (fail_err _ _ (by decide))
      · dsimp only
        have h1 : (precert f a.precert).2.requirePassword = false ∧ (Rej (precert f a.precert).2.tr → (precert f a.precert).2.result = 3) ∧
            ((precert f a.precert).1 = false → (precert f a.precert).2.pendingErr ≠ 0) := by
          unfold precert
          split
          · exact ⟨h0.1, h0.2, by simp⟩
          · rename_i hr
            have hn : ¬Rej f.tr := fun r => by have := h0.2 r; omega
            dsimp only
            split
            · rename_i e; rw [e]
              exact ⟨h0.1, fun r => absurd (r.of_cons (by simp) (by simp)) hn, by simp⟩
            · split
              · exact ⟨h0.1, fun _ => rfl, by simp⟩
              · rename_i e
                have e : a.precert ≠ 31 := e
                split
                · exact ⟨h0.1, fun r => absurd (r.of_cons (by simp) (by simpa using e)) hn, fun _ => by assumption⟩
                · exact ⟨h0.1, fun r => absurd (r.of_cons (by simp) (by simpa using e)) hn, by simp⟩
        split
        · rename_i hx
          exact .inl (finish_err _ (h1.2.2 (by simpa using hx)))
        · generalize (precert f a.precert).2 = y at h1
          have h2 : (verifyCert C y c a.postcert).1.requirePassword = false ∧
              (Rej (verifyCert C y c a.postcert).1.tr → (verifyCert C y c a.postcert).1.result = 3) := by
            unfold verifyCert
            dsimp only
            generalize (if a.postcert = geNotsup then (if C.verify c ≠ 0 then geNotsup else 0) else a.postcert) = rv
            split
            · exact ⟨h1.1, fun r => h1.2.1 (r.of_cons (by simp) (by simp))⟩
            · exact ⟨h1.1, fun r => h1.2.1 (r.of_cons (by simp) (by simp))⟩
          generalize verifyCert C y c a.postcert = z at h2
          split
          · rename_i hz
            have hn : ¬Rej z.1.tr := fun r => by have := h2.2 r; omega
            have h3 : ∀ v, ({ z.1 with result := v } : F).requirePassword = false ∧ (Rej ({ z.1 with result := v } : F).tr →
                ({ z.1 with result := v } : F).result = 3) := fun v => ⟨h2.1, fun r => absurd r hn⟩
            split
            · split
              · split
                · exact .inr (RP_ask (h3 _))
                · exact .inr (RP_ask (h3 _))
              · exact .inr (RP_ask (h3 _))
            · split
              · rename_i hv
                exact .inl (fail_err _ _ hv.1)
              · split
                · split
                  · exact .inr (RP_ask (h3 _))
                  · exact .inr (RP_ask (h3 _))
                · exact .inr (RP_ask h2)
          · exact .inr (RP_ask h2)

theorem RP_passwordCase {f : F} (a : Ans) (h : RP f) :
    (passwordCase f a).1.pendingErr ≠ 0 ∨ RP (passwordCase f a).1 := by
  have h0 : f.requirePassword = false ∧ (Rej f.tr → f.result = 3) := ⟨h.1, fun r => (h.2 r).1⟩
  have chk : ∀ (g : F) (n : Nat), g.requirePassword = false → ¬Rej g.tr → RP (check2fa g n).1 := by
    intro g n g1 g2
    unfold check2fa
    dsimp only
    have hr : ∀ v, ¬Rej (.twofa v n :: g.tr) := fun v r => g2 (r.of_cons (by simp) (by simp))
    refine RP_finish ?_
    repeat' split
    all_goals exact ⟨g1, fun r => absurd r (hr _)⟩
  unfold passwordCase
  split
  · exact .inl (fail_err _ _ (by decide))
  · split
    · split
      · rename_i h3
        refine .inr (chk _ _ h0.1 fun r => ?_)
        have := h0.2 r
        rw [this] at h3
        exact absurd h3.2 (by decide)
      · exact .inr (RP_finish h0)
    · rename_i h2
      have hn : ¬Rej f.tr := fun r => by
        have h3 := h0.2 r
        exact h2 ⟨by omega, by simp [h0.1]⟩
      split
      · exact .inl (fail_err _ _ (by decide))
      · split
        · exact .inr (RP_finish h0)
        · rename_i pw _
          split
          · exact .inr (RP_finish h0)
          · dsimp only
            generalize hg : ({ f with tr := .password pw a.password :: f.tr, password := some (List.replicate pw.length 0) } : F) = g
            have hk : (passwordAns g a.password).requirePassword = false ∧ ¬Rej (passwordAns g a.password).tr := by
              have hr : ¬Rej (.password pw a.password :: f.tr) := fun r => hn (r.of_cons (by simp) (by simp))
              subst hg
              unfold passwordAns
              repeat' split
              all_goals exact ⟨h0.1, hr⟩
            generalize passwordAns g a.password = k at hk
            split
            · exact .inr (RP_finish ⟨hk.1, fun r => absurd r hk.2⟩)
            · exact .inr (chk _ _ hk.1 hk.2)

/-- An error, or a rejection is kept in mind. -/
def RI (f : F) : Prop := f.pendingErr ≠ 0 ∨ RP f

theorem RI_conn {C : Crypto} {f : F} {t : Bool} {a : Ans} {x : F × Rv} (hs : SrvSt f) (h : tryConnect C f t a = some x) (p : RI f) :
    RI x.1 := by
  unfold tryConnect at h
  split at h
  · simp only [Option.some.injEq] at h; subst h; exact p
  · rename_i he
    have p : RP f := p.resolve_left he
    split at h
    · simp only [Option.some.injEq] at h; subst h; exact .inr p
    · split at h
      · simp only [Option.some.injEq] at h; subst h; exact .inl (fail_err _ _ (by decide))
      · unfold SrvSt at hs
        split at h
        · omega
        · simp only [Option.some.injEq] at h; subst h; exact RP_clientHello a p (by assumption)
        · omega
        · omega
        · simp only [Option.some.injEq] at h; subst h; exact RP_challengeRsp C a p
        · omega
        · simp only [Option.some.injEq] at h; subst h; exact RP_passwordCase a p
        · omega
        · split at h
          · simp only [Option.some.injEq] at h; subst h
            exact .inr ⟨p.1, fun r => ⟨(p.2 r).1, show stPass ≠ 1 by decide⟩⟩
          · simp only [Option.some.injEq] at h; subst h; exact .inr p
        · cases h

theorem RI_recv {C : Crypto} {f : F} {b : List UInt8} {x : F × List UInt8 × Nat} (ps : f.pendingErr = 0 → PS f)
    (h : llWrite C f b = some x) (p : RI f) : RI x.1 := by
  by_cases he : f.pendingErr = 0
  · exact .inr (recv_ind (P := RP) (fun _ _ => RP_core) (fun f _ => RP_elem C f)
      (fun f g _ _ e q => by
        have e1 : g.requirePassword = f.requirePassword := congrArg Core.reqPw e
        have e2 : g.tr = f.tr := congrArg Core.tr e
        have e3 : g.result = f.result := congrArg Core.result e
        have e4 : g.state = 6 := congrArg Core.state e
        unfold RP
        rw [e1, e2, e3, e4]
        exact ⟨q.1, fun r => ⟨(q.2 r).1, by decide⟩⟩) f b x h ps (p.resolve_left (by simpa using he))).1
  · unfold llWrite at h
    split at h
    · simp only [Option.some.injEq] at h; subst h; exact p
    · rw [if_pos he] at h
      split at h <;> (simp only [Option.some.injEq] at h; subst h; exact p)

theorem RI_send {f : F} {n : Nat} {x : F × List UInt8} (h : ulWrite f n = some x) (p : RI f) : RI x.1 := by
  have e := send_core h
  have e0 : x.1.pendingErr = f.pendingErr := by
    unfold ulWrite at h
    split at h
    · simp only [Option.some.injEq] at h; subst h; rfl
    · split at h
      · cases h
      · dsimp only at h
        split at h <;> (simp only [Option.some.injEq] at h; subst h; rfl)
  unfold RI
  rw [e0]
  exact p.imp id (RP_core e)

theorem RI_run {C : Crypto} {u r d : Bool} {f g : F} {l : List In} (h : run C f l = some g) (s : SGood u r d f) (p : RI f) : RI g := by
  induction l generalizing f with
  | nil => simp only [run, Option.some.injEq] at h; subst h; exact p
  | cons i l ih =>
    simp only [run] at h
    obtain ⟨x, hx, h⟩ := Option.bind_eq_some_iff.1 h
    refine ih h (SGood_step hx s) ?_
    cases i with
    | recv b => obtain ⟨y, hy, rfl⟩ := Option.map_eq_some_iff.1 hx; exact RI_recv s.1 hy p
    | conn t a => obtain ⟨y, hy, rfl⟩ := Option.map_eq_some_iff.1 hx; exact RI_conn s.2.1 hy p
    | send n => obtain ⟨y, hy, rfl⟩ := Option.map_eq_some_iff.1 hx; exact RI_send hy p

/-! ## A client -/

/-- The server said that the client is authenticated. -/
def Told (tr : List Ev) : Prop := ∃ st, Ev.elem st 106 [0, 1] ∈ tr

/-- The states of a client. -/
def CliSt (f : F) : Prop :=
  f.state = 0 ∨ f.state = 2 ∨ f.state = 4 ∨ f.state = 6 ∨ f.state = 108 ∨ f.state = 109 ∨ f.state = 110

/-- What holds between calls of a client. -/
def CP (f : F) : Prop := CliSt f ∧ f.isClient = true ∧ (f.result = 1 → Told f.tr)

theorem CP_core {f g : F} (e : core g = core f) (h : CP f) : CP g := by
  unfold CP CliSt at *
  have e1 : g.isClient = f.isClient := congrArg Core.isClient e
  have e2 : g.tr = f.tr := congrArg Core.tr e
  have e3 : g.result = f.result := congrArg Core.result e
  have e4 : g.state = f.state := congrArg Core.state e
  rw [e1, e2, e3, e4]; exact h

theorem Told.cons {l : List Ev} (e : Ev) (h : Told l) : Told (e :: l) := h.imp fun _ x => .tail _ x

theorem toU16_one {d : List UInt8} (h : d.length = 2) (h1 : toU16 d = 1) : d = [0, 1] := by
  obtain ⟨a, b, rfl⟩ : ∃ a b, d = [a, b] := by
    cases d with
    | nil => cases h
    | cons a d =>
      cases d with
      | nil => cases h
      | cons b d =>
        cases d with
        | nil => exact ⟨a, b, rfl⟩
        | cons c d => simp at h
  have h2 : a.toNat * 256 + b.toNat = 1 := h1
  have ha : a = 0 := UInt8.toNat_inj.1 (show a.toNat = 0 by omega)
  have hb : b = 1 := UInt8.toNat_inj.1 (show b.toNat = 1 by omega)
  rw [ha, hb]

theorem CP_elem (C : Crypto) (f : F) (fl : Full f) (h : CP f) : CP (elemDone C f) := by
  have key : ∀ (k : Core), core (elemDone C f) = k → (elemDone C f).isClient = k.isClient ∧ (elemDone C f).tr = k.tr ∧
      (elemDone C f).result = k.result ∧ (elemDone C f).state = k.state := by rintro _ rfl; exact ⟨rfl, rfl, rfl, rfl⟩
  unfold CP CliSt
  rcases elem_core C f with e | ⟨_, _, e⟩ | ⟨_, _, e⟩ | ⟨_, c, svc, ok, _, e⟩ | ⟨_, _, c, e⟩ | ⟨h1, h2, h3, e⟩
  all_goals obtain ⟨k1, k2, k3, k4⟩ := key _ e
  all_goals rw [k1, k2, k3, k4]
  · exact ⟨h.1, h.2.1, fun r => (h.2.2 r).cons _⟩
  · exact ⟨h.1, h.2.1, fun r => (h.2.2 r).cons _⟩
  · exact ⟨h.1, h.2.1, fun r => (h.2.2 r).cons _⟩
  · exact ⟨h.1, h.2.1, fun r => ((h.2.2 r).cons _).cons _⟩
  · exact ⟨h.1, h.2.1, fun r => (h.2.2 r).cons _⟩
  · refine ⟨h.1, h.2.1, fun r => ⟨f.state, ?_⟩⟩
    have := toU16_one (by rw [fl.1, h3]) r
    rw [h1, this]
    exact .head _

/-- The result is at most forgotten, and the state is one of a client. -/
def CK (f g : F) : Prop := g.tr = f.tr ∧ g.isClient = f.isClient ∧ (g.result = 1 → f.result = 1)

theorem CK.rfl {f : F} : CK f f := ⟨_root_.rfl, _root_.rfl, id⟩
theorem CK.trans {f g h : F} (a : CK f g) (b : CK g h) : CK f h :=
  ⟨b.1.trans a.1, b.2.1.trans a.2.1, fun x => a.2.2 (b.2.2 x)⟩
theorem W.ck {f g : F} (h : W f g) : CK f g := by
  obtain ⟨w, p, rfl, _⟩ := h
  exact ⟨_root_.rfl, _root_.rfl, id⟩
theorem CK.cp {f g : F} (h : CK f g) (s : CliSt g) (p : CP f) : CP g :=
  ⟨s, h.2.1.trans p.2.1, fun r => by rw [h.1]; exact p.2.2 (h.2.2 r)⟩

theorem CK_fail (f : F) (e : Nat) (he : e ≠ 0) : CK f (fail f e).1 ∧ CliSt (fail f e).1 := by
  obtain ⟨w, p, s, e1, h1, h2⟩ := finishResult_spec { f with pendingErr := e }
  unfold fail
  rw [e1]
  refine ⟨⟨rfl, rfl, fun r => ?_⟩, ?_⟩
  · dsimp only at r
    split at r
    · cases r
    · exact r
  · rcases h1 with ⟨h1, _⟩ | ⟨_, h1, _⟩
    · exact absurd h1 (h2 he)
    · unfold CliSt; rw [h1]; simp [stErr]

theorem CK_finish (f : F) (he : f.pendingErr ≠ 0) : CK f (finishResult f).1 ∧ CliSt (finishResult f).1 := CK_fail f _ he

theorem CP_send2fa {f : F} {a : Ans} (p : CP f) : CP (send2fa f a).1 := by
  have fl : ∀ e, e ≠ 0 → CP (fail f e).1 := fun e h => (CK_fail f e h).1.cp (CK_fail f e h).2 p
  have fin : ∀ g, CP g → CP (brk { writeByte g 200 with state := stServerDone }).1 := by
    intro g h
    have w := (W_writeByte g 200).ck
    generalize writeByte g 200 = q at w
    exact CK.cp (f := g) (g := (brk { q with state := stServerDone }).1) w (by simp [CliSt, brk, stServerDone]) h
  have el : ∀ v, CP (writeElem f 111 v) := fun v => CP_core (W_writeElem f 111 v).core p
  unfold send2fa
  dsimp only
  split
  · rename_i v _
    split
    · exact fl _ (by decide)
    · have := el v
      generalize writeElem f 111 v = g at this
      split
      · rename_i h; exact (CK_finish g h).1.cp (CK_finish g h).2 this
      · exact fin _ this
  · split
    · exact fin _ p
    · split
      · rename_i h; exact fl _ h.1
      · generalize (if a.req2fa.1 = 0 then a.req2fa.2 else []) = v
        split
        · exact fl _ (by decide)
        · have := el v
          generalize writeElem f 111 v = g at this
          split
          · rename_i h; exact (CK_finish g h).1.cp (CK_finish g h).2 this
          · exact fin _ this

theorem CP_conn {C : Crypto} {f : F} {t : Bool} {a : Ans} {x : F × Rv} (h : tryConnect C f t a = some x) (p : CP f) : CP x.1 := by
  have fl : ∀ e, e ≠ 0 → CP (fail f e).1 := fun e h => (CK_fail f e h).1.cp (CK_fail f e h).2 p
  unfold tryConnect at h
  split at h
  · simp only [Option.some.injEq] at h; subst h; exact p
  · split at h
    · simp only [Option.some.injEq] at h; subst h; exact p
    · split at h
      · simp only [Option.some.injEq] at h; subst h; exact fl _ (by decide)
      · have hs := p.1
        unfold CliSt at hs
        split at h
        · simp only [Option.some.injEq] at h; subst h
          unfold clientStart
          dsimp only
          have w : W f (writeByte { f with writeBuf := [] } stClientHello) := (W.buf []).trans (W_writeByte _ _)
          generalize writeByte { f with writeBuf := [] } stClientHello = g at w
          have w2 := w.trans (W_writeElem g 100 (u16 g.myVersion))
          generalize writeElem g 100 (u16 g.myVersion) = g2 at w2
          have w3 := w2.trans (W_writeOpt g2 101 g2.username)
          generalize writeOpt g2 101 g2.username = g3 at w3
          have w4 := w3.trans (W_writeOpt g3 107 g3.service)
          generalize writeOpt g3 107 g3.service = g4 at w4
          have w5 := (w4.trans (W_writeByte g4 200)).ck
          generalize writeByte g4 200 = g5 at w5
          exact CK.cp (f := f) (g := (brk { g5 with state := stServerHello }).1) w5 (by simp [CliSt, brk, stServerHello]) p
        · omega
        · simp only [Option.some.injEq] at h; subst h
          unfold serverHello outFinish brk
          split
          · split
            · exact p
            · exact ⟨by simp [CliSt, stPass], p.2⟩
          · split
            · exact p
            · split
              · exact p
              · exact ⟨by simp [CliSt, stDelay], p.2⟩
        · rename_i hst
          unfold clientDelay at h
          split at h
          · simp only [Option.some.injEq] at h; subst h
            split
            · exact fl _ (by decide)
            · exact p
          · dsimp only at h
            have h1 : CP (writeByte { setDigest f with writeBuf := [] } stChalRsp) := by
              have w : W { setDigest f with writeBuf := [] } (writeByte { setDigest f with writeBuf := [] } stChalRsp) := W_writeByte _ _
              exact CP_core w.core p
            generalize writeByte { setDigest f with writeBuf := [] } stChalRsp = g at h h1
            simp only [Option.pure_def, Option.bind_eq_bind, Option.bind_eq_some_iff] at h
            obtain ⟨y, hy, q, hq, h⟩ := h
            have h2 : CP y := by
              split at hy
              · exact CP_core (W_addCert hy).core h1
              · have w := W_addDummy g 1265
                generalize addDummy g 1265 = z at w hy
                simp only [Option.some.injEq] at hy; subst hy; exact CP_core w.core h1
            have h3 : CP q.1 := by
              split at hq
              · exact CP_core (W_addRsp hq).core h2
              · have w := W_addDummy y 256
                generalize addDummy y 256 = z at w hq
                simp only [Option.some.injEq] at hq; subst hq; exact CP_core w.core h2
            split at h
            · rename_i he
              simp only [Option.some.injEq] at h
              subst h
              exact (CK_fail q.1 q.2 he.2).1.cp (CK_fail q.1 q.2 he.2).2 h3
            · simp only [Option.some.injEq] at h
              subst h
              have h4 : W q.1 (if 2 ≤ q.1.version then writeOpt q.1 112 q.1.aux else q.1) := by
                split
                · exact W_writeOpt _ _ _
                · exact .rfl
              have h5 := (h4.trans (W_writeByte _ 200)).ck
              generalize writeByte (if 2 ≤ q.1.version then writeOpt q.1 112 q.1.aux else q.1) 200 = v at h5
              exact CK.cp (f := q.1) (g := (brk { v with state := stPwReq }).1) h5 (by simp [CliSt, brk, stPwReq]) h3
        · omega
        · simp only [Option.some.injEq] at h; subst h
          unfold passwordReq
          split
          · exact fl _ (by decide)
          · dsimp only
            have p0 : CP { f with writeBuf := [] } := p
            have p1 : CP (writeByte { f with writeBuf := [] } stPassword) := CP_core (W_writeByte _ _).core p0
            generalize writeByte { f with writeBuf := [] } stPassword = k at p1
            generalize f.password.getD [] = pw
            split
            · exact CP_send2fa (CP_core (W_addDummy _ _).core p1)
            · split
              · exact CP_send2fa (CP_core (W_writeElem _ _ _).core p1)
              · split
                · split
                  · rename_i he
                    exact (CK_fail { f with writeBuf := [] } _ he.1).1.cp (CK_fail { f with writeBuf := [] } _ he.1).2 p0
                  · refine CP_send2fa ?_
                    generalize (if a.reqPassword.1 = 0 then (padPassword a.reqPassword.2).take pw.length else List.replicate pw.length 0) = v
                    have := CP_core (W_writeElem k 108 v).core p1
                    generalize writeElem k 108 v = z at this
                    exact this
                · exact CP_send2fa (CP_core (W_writeElem _ _ _).core p1)
        · omega
        · simp only [Option.some.injEq] at h; subst h
          unfold serverDone outFinish
          split
          · exact p
          · split
            · exact p
            · exact ⟨by simp [CliSt, stPass], p.2⟩
        · omega
        · cases h

/-- Between calls of a client. -/
def CGood (f : F) : Prop := (f.pendingErr = 0 → PS f) ∧ CP f

theorem CGood_init (c : Cfg) (h : c.isClient = true) : CGood (init c) :=
  ⟨fun _ => PS_init c, .inl (by simp [init, h, stStart]), by simp [init, h], by simp [init]⟩

theorem CGood_step {C : Crypto} {f g : F} {i : In} (h : step C f i = some g) (p : CGood f) : CGood g := by
  cases i with
  | recv b =>
    obtain ⟨x, hx, rfl⟩ := Option.map_eq_some_iff.1 h
    have := recv_ind (P := CP) (fun _ _ => CP_core) (fun f fl => CP_elem C f fl)
      (fun f g _ _ e q => by
        have e1 : g.isClient = f.isClient := congrArg Core.isClient e
        have e2 : g.tr = f.tr := congrArg Core.tr e
        have e3 : g.result = f.result := congrArg Core.result e
        have e4 : g.state = 6 := congrArg Core.state e
        unfold CP CliSt
        rw [e1, e2, e3, e4]
        exact ⟨by simp, q.2⟩) f b x hx p.1 p.2
    exact ⟨this.2, this.1⟩
  | conn t a =>
    obtain ⟨x, hx, rfl⟩ := Option.map_eq_some_iff.1 h
    refine ⟨?_, CP_conn hx p.2⟩
    intro e
    by_cases e0 : f.pendingErr = 0
    · exact (K_conn hx).PS (p.1 e0)
    · exfalso
      unfold tryConnect at hx
      rw [if_pos e0] at hx
      simp only [Option.some.injEq] at hx
      subst hx
      exact e0 e
  | send n =>
    obtain ⟨x, hx, rfl⟩ := Option.map_eq_some_iff.1 h
    refine ⟨?_, CP_core (send_core hx) p.2⟩
    have e0 : x.1.pendingErr = f.pendingErr ∧ (PS f → PS x.1) := by
      unfold ulWrite at hx
      split at hx
      · simp only [Option.some.injEq] at hx; subst hx; exact ⟨rfl, id⟩
      · split at hx
        · cases hx
        · dsimp only at hx
          split at hx <;> (simp only [Option.some.injEq] at hx; subst hx; exact ⟨rfl, id⟩)
    exact fun h => e0.2 (p.1 (e0.1 ▸ h))

theorem CGood_run {C : Crypto} {f g : F} {l : List In} (h : run C f l = some g) (p : CGood f) : CGood g := by
  induction l generalizing f with
  | nil => simp only [run, Option.some.injEq] at h; subst h; exact p
  | cons i l ih =>
    simp only [run] at h
    obtain ⟨x, hx, h⟩ := Option.bind_eq_some_iff.1 h
    exact ih h (CGood_step hx p)

end Gensio.Certauth
