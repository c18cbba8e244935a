import Verif.Lemmas.CertauthOut

/-!
# The authentication filter: who is authenticated, what is read, what is sent
-/
namespace Gensio.Certauth

/-! ## A concrete OpenSSL for the examples -/

/-- Certificate 7 is the data `[1]` and is trusted; a signature is the data that is signed. -/
def exC : Crypto := ⟨fun d => if d = [1] then some 7 else none, fun _ => [1], fun _ _ _ d s => some (s = d), fun c => if c = 7 then 0 else 30⟩

/-- A challenge. -/
def exRand : List UInt8 := List.replicate 32 9

/-- A step of the handshake where the application answers. -/
def exConn (a : Ans) : In := .conn false { a with rand := some exRand }

/-- The client says hello, sends a certificate with the right signature, and answers to the request for a password. -/
def exCert (pw : List UInt8) (a : Ans) : List In :=
  [.recv [1, 100, 0, 2, 0, 4, 200], exConn {}, .send 1000, .recv ([3, 105, 0, 1, 1, 104, 0, 32] ++ exRand ++ [200]), exConn {}, .send 1000,
   .recv ([5] ++ pw ++ [200]), exConn a, .send 1000]

/-- The client says hello, sends nothing about itself, and answers to the request for a password. -/
def exPw (pw : List UInt8) (a : Ans) : List In :=
  [.recv [1, 100, 0, 2, 0, 4, 200], exConn {}, .send 1000, .recv [3, 200], exConn {}, .send 1000, .recv ([5] ++ pw ++ [200]), exConn a, .send 1000]

/-- What is left when the handshake ends well: what happened, and what `certauth_check_open_done` says. -/
def exEnd (c : Cfg) (l : List In) : Option (List Ev × Nat × Bool) :=
  ((run exC (init c) l).bind fun f => tryConnect exC f false {}).bind fun x =>
    if x.2 = .done 0 then some (x.1.tr, (checkOpenDone x.1).2) else none

private theorem of_end {c : Cfg} {l : List In} {P : List Ev → Nat → Bool → Bool}
    (h : (exEnd c l).any (fun x => P x.1 x.2.1 x.2.2) = true) :
    ∃ f g, run exC (init c) l = some f ∧ tryConnect exC f false {} = some (g, .done 0) ∧ P g.tr (checkOpenDone g).2.1 (checkOpenDone g).2.2 = true := by
  unfold exEnd at h
  cases h1 : run exC (init c) l with
  | none => rw [h1] at h; simp at h
  | some f =>
    rw [h1] at h
    simp only [Option.bind_some] at h
    cases h2 : tryConnect exC f false {} with
    | none => rw [h2] at h; simp at h
    | some x =>
      rw [h2] at h
      simp only [Option.bind_some] at h
      split at h
      · rename_i hd
        refine ⟨f, x.1, rfl, ?_, by simpa using h⟩
        rw [h2, ← hd]
      · simp at h

/-- Whether a trace shows a good signature of a challenge that was made. -/
def sawSig (tr : List Ev) : Bool :=
  tr.any fun e => match e with
    | .sig _ chal _ _ true => tr.contains (.challenge chal)
    | _ => false

/-- Whether a trace shows an accepted password. -/
def sawPw (tr : List Ev) : Bool :=
  tr.any fun e => match e with
    | .password _ 0 => true
    | _ => false

/-- Whether a trace shows an accepted second factor. -/
def sawTfa (tr : List Ev) : Bool :=
  tr.any fun e => match e with
    | .twofa _ 0 => true
    | _ => false

private theorem saw_sig {tr : List Ev} (h : CertOk tr) : sawSig tr = true := by
  obtain ⟨c, ⟨l1, l2, chal, svc, sg, rfl, h⟩, _⟩ := h
  unfold sawSig
  rw [List.any_eq_true]
  refine ⟨.sig c chal svc sg true, by simp, ?_⟩
  simp [h]

private theorem saw_pw {tr : List Ev} (h : PwOk tr) : sawPw tr = true := by
  obtain ⟨p, h⟩ := h
  exact List.any_eq_true.2 ⟨_, h, rfl⟩

private theorem saw_tfa {tr : List Ev} (h : TfaOk tr) : sawTfa tr = true := by
  obtain ⟨p, h⟩ := h
  exact List.any_eq_true.2 ⟨_, h, rfl⟩

/-- Whether a trace shows something other than a password. -/
def sawFirst (tr : List Ev) : Bool := tr.contains .child || tr.contains (.authBegin 0) || tr.contains (.precert 0) || sawSig tr

private theorem saw_first {u : Bool} {tr : List Ev} (h : First u tr) : sawFirst tr = true := by
  unfold sawFirst
  rcases h with h | h | h | h
  · simp [h.2]
  · simp [h]
  · simp [h]
  · simp [saw_sig h]

/-! ## C92: who is authenticated by a server -/

/-- A server that says that the other side is authenticated has seen what is needed, as long as none of the events happened that
it handles wrongly (`Clean`: a result from the client, a signature before the challenge, an empty required password, a password
or second factor that the application did not accept). -/
theorem C92_authenticated_partial {C : Crypto} {c : Cfg} {l : List In} {f g : F} {t : Bool} {a : Ans} (hc : c.isClient = false)
    (hr : run C (init c) l = some f) (hd : tryConnect C f t a = some (g, .done 0)) (ha : (checkOpenDone g).2.2 = true)
    (cl : Clean c.requirePassword c.do2fa g.tr) : Justified c.useChildAuth c.requirePassword c.do2fa g.tr := by
  have hf := SGood_run hr (SGood_init c hc)
  have hg : SGood c.useChildAuth c.requirePassword c.do2fa g :=
    SGood_step (C := C) (i := .conn t a) (by simp only [step, hd, Option.map_some]) hf
  refine (hg.2.2.2 cl).fin (.inr (done_state hd).1) ?_
  show g.result = 1
  unfold checkOpenDone at ha
  dsimp only at ha
  repeat' split at ha
  all_goals first | assumption | cases ha | skip
  all_goals simp_all [rSuccess, rFailure]

/-- A certificate, and with it a password that is required, and a second factor. -/
example : (exEnd {} (exCert [] {})).any (fun x => x.2.1 == 0 && x.2.2 && sawSig x.1) = true := by decide +kernel
example : (exEnd { requirePassword := true } (exCert [108, 0, 1, 5] { password := 0 })).any (fun x => x.2.2 && sawSig x.1 && sawPw x.1) = true := by
  decide +kernel
example : (exEnd { enablePassword := true, do2fa := true } (exPw [108, 0, 1, 5, 111, 0, 1, 8] { password := 0, twofa := 0 })).any
    (fun x => x.2.2 && sawPw x.1 && sawTfa x.1) = true := by decide +kernel
/-- The wrong password. -/
example : (exEnd { enablePassword := true } (exPw [108, 0, 1, 5] { password := 22 })).any (fun x => x.2 == (31, false)) = true := by decide +kernel

/-- A client that sends a certificate and no signature of the challenge is not asked for a password, but refused with
`GE_PROTOERR`. -/
theorem C92_unsigned {C : Crypto} {f : F} {a : Ans} {k : Nat} (h1 : f.state = stChalRsp) (h2 : f.pendingErr = 0) (h3 : f.gotMsg = true)
    (h4 : f.cert = some k) (h5 : f.responseResult = 0) (h6 : f.result ≠ rSuccess) :
    ∃ g, tryConnect C f false a = some (g, .done geProtoerr) ∧ (checkOpenDone g).2.2 = false := by
  have e : tryConnect C f false a = some (fail f geProtoerr) := by
    unfold tryConnect
    rw [if_neg (by simp [h2]), if_neg (by simp [h3]), if_neg (by simp), h1]
    simp only [stChalRsp, challengeRsp, if_neg h6, h4, h5, if_true]
  rw [e]
  refine ⟨(fail f geProtoerr).1, ?_, ?_⟩
  · simp only [fail, finishResult, sendServerDone, writeByte, writeElem, writeU16, write, u16, dataSize, geProtoerr]
    by_cases h : f.result = 0 <;> simp [h, outFinish]
  · simp only [fail, finishResult, sendServerDone, writeByte, writeElem, writeU16, write, u16, dataSize, geProtoerr, checkOpenDone]
    simp only [rSuccess] at h6
    by_cases h : f.result = 0 <;> simp [h, outFinish, rFailure, rSuccess, rErr, h6]
    repeat' split
    all_goals rfl

/-- A client that sends the result itself is authenticated without a certificate and without a password. -/
theorem C92_result_violated : ∃ (c : Cfg) (l : List In) (f g : F), c.isClient = false ∧ run exC (init c) l = some f ∧
    tryConnect exC f false {} = some (g, .done 0) ∧ (checkOpenDone g).2 = (0, true) ∧
    ¬ Justified c.useChildAuth c.requirePassword c.do2fa g.tr := by
  obtain ⟨f, g, h1, h2, h3⟩ := of_end (c := {})
    (l := [.recv [1, 100, 0, 2, 0, 4, 106, 0, 2, 0, 1, 200], exConn {}, .send 1000, .recv [3, 200], exConn {}, .send 1000, .recv [5, 200], exConn {},
      .send 1000])
    (P := fun tr e b => e == 0 && b && !sawFirst tr && !sawPw tr) (by decide +kernel)
  simp only [Bool.and_eq_true, beq_iff_eq, Bool.not_eq_true'] at h3
  refine ⟨_, _, f, g, rfl, h1, h2, Prod.ext h3.1.1.1 h3.1.1.2, fun j => ?_⟩
  rcases j.1 with j | j
  · rw [saw_first j] at h3; simp at h3
  · rw [saw_pw j] at h3; simp at h3

/-- A signature of 32 zeros, sent before there is a challenge, authenticates the owner of a certificate. -/
theorem C92_stale_violated : ∃ (c : Cfg) (l : List In) (f g : F), c.isClient = false ∧ run exC (init c) l = some f ∧
    tryConnect exC f false {} = some (g, .done 0) ∧ (checkOpenDone g).2 = (0, true) ∧
    ¬ Justified c.useChildAuth c.requirePassword c.do2fa g.tr := by
  obtain ⟨f, g, h1, h2, h3⟩ := of_end (c := {})
    (l := [.recv ([1, 100, 0, 2, 0, 4, 105, 0, 1, 1, 104, 0, 32] ++ List.replicate 32 0 ++ [200]), exConn {}, .send 1000, .recv [3, 200], exConn {},
      .send 1000, .recv [5, 200], exConn {}, .send 1000])
    (P := fun tr e b => e == 0 && b && !sawFirst tr && !sawPw tr) (by decide +kernel)
  simp only [Bool.and_eq_true, beq_iff_eq, Bool.not_eq_true'] at h3
  refine ⟨_, _, f, g, rfl, h1, h2, Prod.ext h3.1.1.1 h3.1.1.2, fun j => ?_⟩
  rcases j.1 with j | j
  · rw [saw_first j] at h3; simp at h3
  · rw [saw_pw j] at h3; simp at h3

/-- A password that is required in addition to the certificate may be empty. -/
theorem C92_empty_violated : ∃ (c : Cfg) (l : List In) (f g : F), c.isClient = false ∧ c.requirePassword = true ∧ run exC (init c) l = some f ∧
    tryConnect exC f false {} = some (g, .done 0) ∧ (checkOpenDone g).2 = (0, true) ∧ ¬ PwOk g.tr := by
  obtain ⟨f, g, h1, h2, h3⟩ := of_end (c := { requirePassword := true }) (l := exCert [108, 0, 1, 0] {})
    (P := fun tr e b => e == 0 && b && !sawPw tr) (by decide +kernel)
  simp only [Bool.and_eq_true, beq_iff_eq, Bool.not_eq_true'] at h3
  refine ⟨_, _, f, g, rfl, rfl, h1, h2, Prod.ext h3.1.1 h3.1.2, fun j => ?_⟩
  rw [saw_pw j] at h3; simp at h3

/-- A password that is required in addition to the certificate may be wrong. -/
theorem C92_wrong_violated : ∃ (c : Cfg) (l : List In) (f g : F), c.isClient = false ∧ c.requirePassword = true ∧ run exC (init c) l = some f ∧
    tryConnect exC f false {} = some (g, .done 0) ∧ (checkOpenDone g).2 = (0, true) ∧ (∃ pw, Ev.password pw 22 ∈ g.tr) ∧ ¬ PwOk g.tr := by
  obtain ⟨f, g, h1, h2, h3⟩ := of_end (c := { requirePassword := true }) (l := exCert [108, 0, 1, 5] { password := 22 })
    (P := fun tr e b => e == 0 && b && !sawPw tr && tr.contains (.password [5] 22)) (by decide +kernel)
  simp only [Bool.and_eq_true, beq_iff_eq, Bool.not_eq_true'] at h3
  refine ⟨_, _, f, g, rfl, rfl, h1, h2, Prod.ext h3.1.1.1 h3.1.1.2, ⟨[5], by simpa using h3.2⟩, fun j => ?_⟩
  rw [saw_pw j] at h3; simp at h3

/-- With the right password the second factor may be wrong. -/
theorem C92_twofa_violated : ∃ (c : Cfg) (l : List In) (f g : F), c.isClient = false ∧ c.do2fa = true ∧ run exC (init c) l = some f ∧
    tryConnect exC f false {} = some (g, .done 0) ∧ (checkOpenDone g).2 = (0, true) ∧ (∃ v, Ev.twofa v 22 ∈ g.tr) ∧ ¬ TfaOk g.tr := by
  obtain ⟨f, g, h1, h2, h3⟩ := of_end (c := { enablePassword := true, do2fa := true })
    (l := exPw [108, 0, 1, 5, 111, 0, 1, 8] { password := 0, twofa := 22 })
    (P := fun tr e b => e == 0 && b && !sawTfa tr && tr.contains (.twofa [8] 22)) (by decide +kernel)
  simp only [Bool.and_eq_true, beq_iff_eq, Bool.not_eq_true'] at h3
  refine ⟨_, _, f, g, rfl, rfl, h1, h2, Prod.ext h3.1.1.1 h3.1.1.2, ⟨[8], by simpa using h3.2⟩, fun j => ?_⟩
  rw [saw_tfa j] at h3; simp at h3

/-- With the right second factor the password may be wrong, and nothing else is needed. -/
theorem C92_twofa_only_violated : ∃ (c : Cfg) (l : List In) (f g : F), c.isClient = false ∧ c.do2fa = true ∧ run exC (init c) l = some f ∧
    tryConnect exC f false {} = some (g, .done 0) ∧ (checkOpenDone g).2 = (0, true) ∧ (∃ pw, Ev.password pw 22 ∈ g.tr) ∧
    ¬ Justified c.useChildAuth c.requirePassword c.do2fa g.tr := by
  obtain ⟨f, g, h1, h2, h3⟩ := of_end (c := { enablePassword := true, do2fa := true })
    (l := exPw [108, 0, 1, 5, 111, 0, 1, 8] { password := 22, twofa := 0 })
    (P := fun tr e b => e == 0 && b && !sawFirst tr && !sawPw tr && tr.contains (.password [5] 22)) (by decide +kernel)
  simp only [Bool.and_eq_true, beq_iff_eq, Bool.not_eq_true'] at h3
  refine ⟨_, _, f, g, rfl, rfl, h1, h2, Prod.ext h3.1.1.1.1 h3.1.1.1.2, ⟨[5], by simpa using h3.2⟩, fun j => ?_⟩
  rcases j.1 with j | j
  · rw [saw_first j] at h3; simp at h3
  · rw [saw_pw j] at h3; simp at h3

/-- The certificate is sent without a signature. -/
example : ((run exC (init {}) [.recv [1, 100, 0, 2, 0, 4, 200], exConn {}, .send 1000, .recv [3, 105, 0, 1, 1, 200]]).bind
    fun f => tryConnect exC f false {}).map (·.2) = some (.done geProtoerr) := by decide +kernel

/-! ## C93: who is rejected -/

/-- If the application rejects the user at `GENSIO_EVENT_AUTH_BEGIN` or `GENSIO_EVENT_PRECERT_VERIFY`, the connection is refused,
even if a failed authentication is allowed; without `require-password`. -/
theorem C93_rejected_partial {C : Crypto} {c : Cfg} {l : List In} {f g : F} {t : Bool} {a : Ans} (hc : c.isClient = false)
    (hp : c.requirePassword = false) (hr : run C (init c) l = some f) (hd : tryConnect C f t a = some (g, .done 0))
    (hj : Ev.authBegin geAuthreject ∈ g.tr ∨ Ev.precert geAuthreject ∈ g.tr) : (checkOpenDone g).2 = (geAuthreject, false) := by
  have hf := SGood_run hr (SGood_init c hc)
  have ri : RI f := RI_run hr (SGood_init c hc) (.inr ⟨hp, fun h => by rcases h with h | h <;> cases h⟩)
  have rg := RI_conn hf.2.1 hd ri
  have hs := done_state hd
  have := ((rg.resolve_left (fun x => x hs.2.2.1)).2 hj).1
  unfold checkOpenDone
  simp [show g.result = 3 from this, rSuccess, rErr]

/-- Rejected, though the certificate is good and a failed authentication is allowed. -/
example : (exEnd { allowAuthfail := true } ([.recv [1, 100, 0, 2, 0, 4, 200], exConn { authBegin := 31 }, .send 1000,
    .recv ([3, 105, 0, 1, 1, 104, 0, 32] ++ exRand ++ [200]), exConn {}, .send 1000, .recv [5, 200], exConn {}, .send 1000])).any
    (fun x => x.2 == (31, false)) = true := by decide +kernel

/-- With `require-password` a user that was rejected is authenticated by a password. -/
theorem C93_rejected_violated : ∃ (c : Cfg) (l : List In) (f g : F), c.isClient = false ∧ run exC (init c) l = some f ∧
    tryConnect exC f false {} = some (g, .done 0) ∧ Ev.authBegin geAuthreject ∈ g.tr ∧ (checkOpenDone g).2 = (0, true) := by
  obtain ⟨f, g, h1, h2, h3⟩ := of_end (c := { enablePassword := true, requirePassword := true })
    (l := [.recv [1, 100, 0, 2, 0, 4, 200], exConn { authBegin := 31 }, .send 1000, .recv [3, 200], exConn {}, .send 1000,
      .recv [5, 108, 0, 1, 5, 200], exConn { password := 0 }, .send 1000])
    (P := fun tr e b => e == 0 && b && tr.contains (.authBegin 31)) (by decide +kernel)
  simp only [Bool.and_eq_true, beq_iff_eq] at h3
  exact ⟨_, _, f, g, rfl, h1, h2, by simpa [geAuthreject] using h3.2, Prod.ext h3.1.1 h3.1.2⟩

/-! ## C94: what a client believes -/

/-- A client that finishes the handshake was told by the server that it is authenticated. -/
theorem C94_client_told {C : Crypto} {c : Cfg} {l : List In} {f g : F} {t : Bool} {a : Ans} (hc : c.isClient = true)
    (hr : run C (init c) l = some f) (hd : tryConnect C f t a = some (g, .done 0)) :
    (∃ st, Ev.elem st 106 [0, 1] ∈ g.tr) ∧ (checkOpenDone g).2 = (0, true) := by
  have hf := CGood_run hr (CGood_init c hc)
  have hg := CP_conn hd hf.2
  have hs := done_state hd
  have h1 : g.result = 1 := hs.2.2.2.resolve_left (by
    have := hf.2.1
    unfold CliSt at this
    omega)
  refine ⟨hg.2.2 h1, ?_⟩
  unfold checkOpenDone
  simp [h1, rSuccess]

/-- The client is told, and it is not told. -/
example : (exEnd { isClient := true } [exConn {}, .send 1000, .recv [6, 106, 0, 2, 0, 1, 200]]).any
    (fun x => x.2 == (0, true) && x.1.contains (.elem 6 106 [0, 1])) = true := by decide +kernel
example : ((run exC (init { isClient := true }) [exConn {}, .send 1000, .recv [6, 106, 0, 2, 0, 2, 200]]).bind
    fun f => tryConnect exC f false {}).map (·.2) = some (.done 31) := by decide +kernel

/-! ## C95: messages are read whole -/

/-- A message for the state of the filter, in one piece: its elements are handled once and in order, nothing after it is taken,
and the step of the handshake may come. -/
theorem C95_message {C : Crypto} {f : F} {m : UInt8} {es : List (Nat × List UInt8)} {rest : List UInt8} (h1 : f.state ≠ stPass)
    (h2 : f.pendingErr = 0) (h3 : f.currMsg = 0) (h4 : m.toNat ≤ 6) (h5 : m.toNat = f.state ∨ (f.isClient = true ∧ m.toNat = 6))
    (hw : ∀ e ∈ es, 100 ≤ e.1 ∧ e.1 ≤ 112 ∧ 0 < e.2.length ∧ e.2.length ≤ 2048) :
    ∃ g e, llWrite C f (m :: (es.flatMap (fun e => UInt8.ofNat e.1 :: (u16 e.2.length ++ e.2)) ++ 200 :: rest)) = some (g, rest, e) ∧
      g.gotMsg = true ∧ g.currMsg = 0 ∧
      (g.tr.filterMap fun e => match e with | .elem _ t d => some (t, d) | _ => none) =
        es.reverse ++ f.tr.filterMap fun e => match e with | .elem _ t d => some (t, d) | _ => none := by
  refine ⟨_, _, llWrite_message (C := C) (f := f) es rest ⟨h1, h2, h3, h4, h5⟩ hw, rfl, rfl, ?_⟩
  exact elems_put C _ es

/-- A hello with two elements, and another message after it. -/
example : (llWrite exC (init {}) [1, 100, 0, 2, 0, 4, 101, 0, 2, 65, 66, 200, 3, 200]).any
    (fun x => x.1.version == 4 && x.1.username == some [65, 66] && x.2.1 == [3, 200] && x.2.2 == 0) = true := by decide +kernel

/-- Data that comes in two parts is read like data that comes in one, if the first part ends inside of a message. -/
theorem C95_split {C : Crypto} {c : Cfg} {l : List In} {f g : F} {a b : List UInt8} (hr : run C (init c) l = some f)
    (h : llWrite C f a = some (g, [], 0)) (hm : g.currMsg ≠ 0) : llWrite C f (a ++ b) = llWrite C g b :=
  llWrite_append (PI_run hr (PI_init c)) h hm

/-- The parts `[1, 100, 0]` and `[2, 0, 4, 200]`. -/
example : ((llWrite exC (init {}) [1, 100, 0]).bind fun x => llWrite exC x.1 [2, 0, 4, 200]) = llWrite exC (init {}) [1, 100, 0, 2, 0, 4, 200] ∧
    (llWrite exC (init {}) [1, 100, 0]).any (fun x => x.1.currMsg == 1 && x.2.1 == [] && x.2.2 == 0) = true := by decide +kernel

/-- If reading goes wrong it is because the data ends too early: with the end of the message after it, it is read. -/
theorem C95_safe_partial {C : Crypto} {c : Cfg} {l : List In} {f : F} {a : List UInt8} (hr : run C (init c) l = some f)
    (h : llWrite C f a = none) : llWrite C f (a ++ [200]) ≠ none :=
  llWrite_none (PI_run hr (PI_init c)) h

/-- It does go wrong, for every message and every element: if the data that came ends just after an element, the number of the
next element is read from behind the data. -/
theorem C95_boundary_violated {C : Crypto} {f : F} {m : UInt8} {es : List (Nat × List UInt8)} (h1 : f.state ≠ stPass)
    (h2 : f.pendingErr = 0) (h3 : f.currMsg = 0) (h4 : m.toNat ≤ 6) (h5 : m.toNat = f.state ∨ (f.isClient = true ∧ m.toNat = 6))
    (hw : ∀ e ∈ es, 100 ≤ e.1 ∧ e.1 ≤ 112 ∧ 0 < e.2.length ∧ e.2.length ≤ 2048) (hne : es ≠ []) :
    llWrite C f (m :: es.flatMap fun e => UInt8.ofNat e.1 :: (u16 e.2.length ++ e.2)) = none :=
  llWrite_boundary es ⟨h1, h2, h3, h4, h5⟩ hw hne

/-- The first bytes of a hello. -/
example : llWrite exC (init {}) [1, 100, 0, 2, 0, 4] = none ∧ (llWrite exC (init {}) [1, 100, 0, 2, 0, 4, 101]).isSome = true := by decide +kernel

/-- An error in a message is still there at its end, if no signature and no certificate comes after it. -/
theorem C95_error_partial {C : Crypto} {f g1 g2 : F} {m : UInt8} {e1 e2 : Nat} {r1 r2 : List UInt8} {es fs : List (Nat × List UInt8)}
    (h1 : f.state ≠ stPass) (h2 : f.pendingErr = 0) (h3 : f.currMsg = 0) (h4 : m.toNat ≤ 6)
    (h5 : m.toNat = f.state ∨ (f.isClient = true ∧ m.toNat = 6))
    (hw : ∀ e ∈ es ++ fs, 100 ≤ e.1 ∧ e.1 ≤ 112 ∧ 0 < e.2.length ∧ e.2.length ≤ 2048) (hf : ∀ e ∈ fs, e.1 ≠ 104 ∧ e.1 ≠ 105)
    (ha : llWrite C f (m :: (es.flatMap (fun e => UInt8.ofNat e.1 :: (u16 e.2.length ++ e.2)) ++ [200])) = some (g1, r1, e1)) (he : e1 ≠ 0)
    (hb : llWrite C f (m :: ((es ++ fs).flatMap (fun e => UInt8.ofNat e.1 :: (u16 e.2.length ++ e.2)) ++ [200])) = some (g2, r2, e2)) :
    e2 ≠ 0 := by
  have k1 := llWrite_message (C := C) (f := f) es [] ⟨h1, h2, h3, h4, h5⟩ (fun e h => hw e (List.mem_append_left _ h))
  have k2 := llWrite_message (C := C) (f := f) (es ++ fs) [] ⟨h1, h2, h3, h4, h5⟩ hw
  have e1' := k1.symm.trans ha
  have e2' := k2.symm.trans hb
  simp only [Option.some.injEq, Prod.mk.injEq] at e1' e2'
  rw [← e2'.2.2, List.foldl_append]
  exact err_foldl C fs _ hf (by rw [e1'.2.2]; exact he)

/-- The version twice. -/
example : (llWrite exC (init {}) [1, 100, 0, 2, 0, 4, 100, 0, 2, 0, 4, 101, 0, 1, 65, 200]).any (fun x => x.2.2 == 23) = true := by decide +kernel

/-- A certificate makes the filter forget that there was an error in the message. -/
theorem C95_error_violated : ∃ (f g1 g2 : F), f = init {} ∧
    llWrite exC f [1, 100, 0, 2, 0, 4, 100, 0, 2, 0, 4, 200] = some (g1, [], geProtoerr) ∧
    llWrite exC f [1, 100, 0, 2, 0, 4, 100, 0, 2, 0, 4, 105, 0, 1, 1, 200] = some (g2, [], 0) := by
  have k1 : (llWrite exC (init {}) [1, 100, 0, 2, 0, 4, 100, 0, 2, 0, 4, 200]).map (·.2) = some ([], 23) := by decide +kernel
  have k2 : (llWrite exC (init {}) [1, 100, 0, 2, 0, 4, 100, 0, 2, 0, 4, 105, 0, 1, 1, 200]).map (·.2) = some ([], 0) := by decide +kernel
  obtain ⟨x, hx, e⟩ := Option.map_eq_some_iff.1 k1
  obtain ⟨y, hy, e'⟩ := Option.map_eq_some_iff.1 k2
  exact ⟨_, x.1, y.1, rfl, by rw [hx, ← show x.2 = ([], geProtoerr) from e], by rw [hy, ← show y.2 = ([], 0) from e']⟩

/-! ## C96: output -/

/-- The write buffer does not overflow. -/
theorem C96_bound {C : Crypto} {c : Cfg} {l : List In} {f : F} (hr : run C (init c) l = some f) : f.writeBuf.length ≤ 2048 :=
  buf_run hr (Nat.zero_le _)

/-- A hello that is too long: the name does not fit. -/
example : (run exC (init { isClient := true, username := some (List.replicate 2050 65) }) [exConn {}]).any
    (fun f => f.writeBuf.length ≤ 2048 && f.pendingErr == 13) = true := by decide +kernel

/-- If no step of the handshake is taken while data is still to be sent (except steps with nothing to do), the lower layer gets
exactly the bytes of the messages, in order, and can take any number of bytes at any time. -/
theorem C96_output_partial {C : Crypto} {c : Cfg} {l : List In} {g : F} {q s : List UInt8} (h : Flow C (init c) l g q s) :
    run C (init c) l = some g ∧ q = s ++ g.writeBuf.drop g.writePos ∧ ∀ n, ulWrite g n ≠ none := by
  obtain ⟨p, e⟩ := h.ok ⟨Nat.zero_le _, fun _ => rfl⟩
  refine ⟨h.run, by simpa [init] using e, fun n => ?_⟩
  unfold ulWrite
  split
  · simp
  · rw [if_neg (by have := p.1; omega)]
    dsimp only
    split <;> simp

/-- A hello that is sent in two parts. -/
example : ∃ g q s, Flow exC (init { isClient := true }) [.conn false {}, .send 3, .send 100] g q s ∧ q = [1, 100, 0, 2, 0, 4, 200] ∧ s = q :=
  ⟨_, _, _, .conn rfl rfl (.send rfl (.send rfl (.nil _))), by decide +kernel, by decide +kernel⟩

/-- If the other side sends its next message early, while the lower layer has taken a part of the hello, the position stays where
it was in the old message. -/
theorem C96_output_violated : ∃ (c : Cfg) (l : List In) (f : F), c.isClient = false ∧ run exC (init c) l = some f ∧ ∀ n, ulWrite f n = none := by
  have h : (run exC (init {}) [.recv [1, 100, 0, 2, 0, 4, 106, 0, 2, 0, 1, 200], exConn {}, .send 20, .recv [3, 200], exConn {}]).any
      (fun f => !f.writeBuf.isEmpty && decide (f.writeBuf.length < f.writePos)) = true := by decide +kernel
  cases hr : run exC (init {}) [.recv [1, 100, 0, 2, 0, 4, 106, 0, 2, 0, 1, 200], exConn {}, .send 20, .recv [3, 200], exConn {}] with
  | none => rw [hr] at h; simp at h
  | some f =>
    rw [hr] at h
    simp only [Option.any_some, Bool.and_eq_true, Bool.not_eq_true', decide_eq_true_eq] at h
    refine ⟨_, _, f, rfl, hr, fun n => ?_⟩
    unfold ulWrite
    rw [if_neg (by simp [h.1]), if_pos h.2]

/-! ## C97: opening again -/

/-- After `certauth_cleanup` nothing of the old session authenticates, and its secrets are gone. -/
theorem C97_cleanup_partial (f : F) : (checkOpenDone (cleanup f)).2.2 = false ∧ (cleanup f).val2fa = none ∧
    (∀ p, (cleanup f).password = some p → ∀ b ∈ p, b = 0) ∧ (f.isClient = false → (cleanup f).cert = none ∧ (cleanup f).username = none) := by
  unfold cleanup
  split
  · rename_i hc
    refine ⟨by simp [checkOpenDone, rFailure, rSuccess, rErr, hc], rfl, ?_, fun h => absurd (hc.symm.trans h) (by decide)⟩
    intro p hp b hb
    obtain ⟨q, _, rfl⟩ := Option.map_eq_some_iff.1 hp
    exact (List.mem_replicate.1 hb).2
  · rename_i hc
    refine ⟨?_, rfl, fun p hp => (by cases hp), fun _ => ⟨rfl, rfl⟩⟩
    simp only [checkOpenDone, rFailure, rSuccess, rErr]
    cases f.allowAuthfail <;> simp [hc]

/-- A client with a password. -/
example : (cleanup { init { isClient := true, password := some [5] } with result := 1 }).password = some (List.replicate 100 0) := by decide +kernel

/-- No filter that has finished a handshake can do another one: the state is not reset, and the first step fails an assertion. -/
theorem C97_reopen_violated {C : Crypto} {f g : F} {t : Bool} {a : Ans} (hd : tryConnect C f t a = some (g, .done 0)) :
    (cleanup g).state = stPass ∧ (∀ b, tryConnect C (cleanup g) false b = none) ∧
    ∀ d, llWrite C (cleanup g) d = some (cleanup g, [], 0) := by
  obtain ⟨h1, h2, h3, _⟩ := done_state hd
  have e1 : (cleanup g).state = 108 := by unfold cleanup; split <;> exact h1
  have e2 : (cleanup g).gotMsg = true := by unfold cleanup; split <;> exact h2
  have e3 : (cleanup g).pendingErr = 0 := rfl
  refine ⟨e1, fun b => ?_, fun d => ?_⟩
  · unfold tryConnect
    rw [if_neg (by simp [e3]), if_neg (by simp [e2]), if_neg (by simp), e1]
    rfl
  · cases d with
    | nil => rfl
    | cons c d => unfold llWrite; dsimp only; rw [if_pos (show _ = stPass from e1)]

/-- There is a filter that has finished. -/
example : ((run exC (init {}) (exCert [] {})).bind fun f => tryConnect exC f false {}).map (·.2) = some (.done 0) := by decide +kernel

/-! ## C98: the password that the application sees -/

/-- A server that is sent a password of a client (filled with zeros to 100 bytes) gives all 100 bytes to the application, with the
password as the part before the first zero. -/
theorem C98_password_partial {C : Crypto} {f : F} {p : List UInt8} (h1 : f.state = stPassword) (h2 : f.pendingErr = 0) (h3 : f.currMsg = 0)
    (hp : f.password = none) (hl : p.length < 100) (hn : p ≠ []) (hz : ∀ b ∈ p, b ≠ 0) :
    ∃ g w, llWrite C f (5 :: ([108] ++ u16 100 ++ padPassword p ++ [200])) = some (g, [], 0) ∧ g.password = some w ∧
      w.takeWhile (· ≠ 0) = p ∧ w = padPassword p := by
  have hlen : (padPassword p).length = 100 := by simp only [padPassword, List.length_append, List.length_replicate]; omega
  have hm := llWrite_message (C := C) (f := f) (c := 5) [(108, padPassword p)] []
    ⟨by rw [h1]; decide, h2, h3, by decide, .inl h1.symm⟩ (fun e he => by
      rw [List.mem_singleton.1 he]
      exact ⟨by simp, by simp, by dsimp only; omega, by dsimp only; omega⟩)
  have he : encs [(108, padPassword p)] ++ [200] = [108] ++ u16 100 ++ padPassword p ++ [200] := by
    simp [encs, enc, hlen]
  rw [he] at hm
  obtain ⟨x, p', rfl⟩ := List.exists_cons_of_ne_nil hn
  have hx : x ≠ 0 := hz x (.head _)
  have hlim : limitedStrlen (padPassword (x :: p')) (padPassword (x :: p')).length = 100 := by
    rw [hlen]
    unfold limitedStrlen
    rw [if_neg]
    simp [padPassword, hx]
  have hput : ∀ s : F, s.password = none → (put C s (108, padPassword (x :: p'))).password = some (padPassword (x :: p')) ∧
      (put C s (108, padPassword (x :: p'))).pendingErr = s.pendingErr := by
    intro s hs
    unfold put elemDone handleElem
    simp only [hs, Option.isSome_none, Bool.false_eq_true, if_false, hlim, and_true]
    rw [List.take_of_length_le (by omega)]
  obtain ⟨e1, e2⟩ := hput (start f (5 : UInt8).toNat) hp
  refine ⟨ended (put C (start f (5 : UInt8).toNat) (108, padPassword (x :: p'))), padPassword (x :: p'), hm.trans ?_, e1, ?_, rfl⟩
  · rw [List.foldl_cons, List.foldl_nil, e2, show (start f (5 : UInt8).toNat).pendingErr = 0 from h2]
  · unfold padPassword
    rw [List.takeWhile_append_of_pos (by simpa using hz)]
    cases h : 100 - (x :: p').length with
    | zero => simp
    | succ n => simp [List.replicate_succ]

/-- A password of 3 bytes. -/
example : (llWrite exC { init { enablePassword := true } with state := 5 } (5 :: ([108] ++ u16 100 ++ padPassword [65, 66, 67] ++ [200]))).any
    (fun x => x.1.password == some (padPassword [65, 66, 67]) && x.2.2 == 0) = true := by decide +kernel

/-- So the length that the application is given is not the length of the password. -/
theorem C98_length_violated {C : Crypto} {f : F} {p : List UInt8} (h1 : f.state = stPassword) (h2 : f.pendingErr = 0) (h3 : f.currMsg = 0)
    (hp : f.password = none) (hl : p.length < 100) (hn : p ≠ []) (hz : ∀ b ∈ p, b ≠ 0) :
    ∃ g w, llWrite C f (5 :: ([108] ++ u16 100 ++ padPassword p ++ [200])) = some (g, [], 0) ∧ g.password = some w ∧ w.length = 100 ∧
      w.length ≠ p.length := by
  obtain ⟨g, w, k1, k2, _, k4⟩ := C98_password_partial (C := C) h1 h2 h3 hp hl hn hz
  have hlen : w.length = 100 := by rw [k4]; simp only [padPassword, List.length_append, List.length_replicate]; omega
  exact ⟨g, w, k1, k2, hlen, by omega⟩

end Gensio.Certauth
