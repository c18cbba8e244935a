import Verif.Model.Certauth

/-!
# Lemmas about the authentication filter
-/
namespace Gensio.Certauth

/-! ## Output changes the write buffer and may set an error -/

/-- Only the write buffer and the error differ, and an error stays an error. -/
def W (f g : F) : Prop := ∃ w p, g = { f with writeBuf := w, pendingErr := p } ∧ (f.pendingErr ≠ 0 → p ≠ 0)

theorem W.rfl {f : F} : W f f := ⟨_, _, _root_.rfl, id⟩
theorem W.trans {f g h : F} (a : W f g) (b : W g h) : W f h := by
  obtain ⟨w, p, rfl, i⟩ := a
  obtain ⟨w', p', rfl, j⟩ := b
  exact ⟨w', p', by simp, fun x => j (i x)⟩
theorem W.buf {f : F} (w : List UInt8) : W f { f with writeBuf := w } := ⟨_, _, _root_.rfl, id⟩
theorem W.err {f : F} (e : Nat) (h : e ≠ 0) : W f { f with pendingErr := e } := ⟨_, _, _root_.rfl, fun _ => h⟩

theorem W_write (f : F) (d : List UInt8) : W f (write f d) := by
  unfold write
  split
  · exact .err _ (by decide)
  · exact .buf _
theorem W_writeByte (f : F) (v : Nat) : W f (writeByte f v) := W_write _ _
theorem W_writeElem (f : F) (t : Nat) (d : List UInt8) : W f (writeElem f t d) :=
  ((W_writeByte f t).trans (W_write _ _)).trans (W_write _ _)
theorem W_writeOpt (f : F) (t : Nat) (d : Option (List UInt8)) : W f (writeOpt f t d) := by
  unfold writeOpt
  split
  · exact .rfl
  · split
    · exact .rfl
    · exact W_writeElem _ _ _
theorem W_addDummy (f : F) (n : Nat) : W f (addDummy f n) := W_writeElem _ _ _
theorem W_addCert {C : Crypto} {f g : F} {c : Nat} (h : addCert C f c = some g) : W f g := by
  unfold addCert at h
  dsimp only at h
  split at h
  · cases h
  · simp only [Option.some.injEq] at h
    subst h
    exact (W_writeByte _ _).trans (.buf _)
theorem W_addRsp {f : F} {s : Except Nat (List UInt8)} {x : F × Nat} (h : addRsp f s = some x) : W f x.1 := by
  unfold addRsp at h
  dsimp only at h
  split at h
  · cases h
  · split at h
    · simp only [Option.some.injEq] at h; subst h; exact (W_writeByte _ _).trans (.buf _)
    · split at h <;> (simp only [Option.some.injEq] at h; subst h; exact (W_writeByte _ _).trans (.buf _))

/-- `certauth_send_server_done` sets a missing result to a failure. -/
theorem sendServerDone_W (f : F) : W { f with result := if f.result = 0 then rFailure else f.result } (sendServerDone f) := by
  unfold sendServerDone
  by_cases h : f.result = 0
  · simp only [h, if_true]
    exact (((W.buf []).trans (W_writeByte _ _)).trans (W_writeElem _ _ _)).trans (W_writeByte _ _)
  · simp only [h, if_false]
    exact (((W.buf []).trans (W_writeByte _ _)).trans (W_writeElem _ _ _)).trans (W_writeByte _ _)

/-- What `finish_result` does. -/
theorem finishResult_spec (f : F) : ∃ w p s, (finishResult f).1 =
      { f with result := if f.result = 0 then rFailure else f.result, writeBuf := w, pendingErr := p, state := s } ∧
    ((p = 0 ∧ s = stWaitWrite ∧ (finishResult f).2 = .inprogress) ∨ (p ≠ 0 ∧ s = stErr ∧ (finishResult f).2 = .done p)) ∧
    (f.pendingErr ≠ 0 → p ≠ 0) := by
  unfold finishResult
  obtain ⟨w, p, e, hp⟩ := sendServerDone_W f
  rw [e]
  by_cases h : p = 0
  · subst h
    exact ⟨w, 0, stWaitWrite, by simp, .inl (by simp), hp⟩
  · refine ⟨w, p, stErr, by simp [h, outFinish], .inr ⟨h, rfl, by simp [h, outFinish]⟩, hp⟩

/-! ## The part that decides -/

/-- The part of the filter that authentication depends on. -/
structure Core where
  isClient : Bool
  useChild : Bool
  reqPw : Bool
  do2fa : Bool
  challenge : Option (List UInt8)
  password : Option (List UInt8)
  cert : Option Nat
  state : Nat
  rsp : Nat
  result : Nat
  verified : Bool
  tr : List Ev

/-- The part of a filter. -/
def core (f : F) : Core :=
  ⟨f.isClient, f.useChildAuth, f.requirePassword, f.do2fa, f.challenge, f.password, f.cert, f.state, f.responseResult, f.result,
    f.verified, f.tr⟩

theorem W.core {f g : F} (h : W f g) : core g = core f := by
  obtain ⟨w, p, rfl, _⟩ := h
  rfl

/-- What an element does. -/
theorem elem_core (C : Crypto) (f : F) :
    (core (elemDone C f) = { core f with tr := .elem f.state f.currElem f.readBuf :: f.tr }) ∨
    (f.currElem = 108 ∧ f.password = none ∧ core (elemDone C f) =
      { core f with password := some (f.readBuf.take (limitedStrlen f.readBuf f.currLen)),
                    tr := .elem f.state f.currElem f.readBuf :: f.tr }) ∨
    (f.currElem = 103 ∧ f.challenge = none ∧ core (elemDone C f) =
      { core f with challenge := some f.readBuf, tr := .elem f.state f.currElem f.readBuf :: f.tr }) ∨
    (f.currElem = 104 ∧ ∃ c svc ok, f.cert = some c ∧ core (elemDone C f) =
      { core f with rsp := if ok then rSuccess else rFailure,
                    tr := .sig c (f.challenge.getD []) svc f.readBuf ok :: .elem f.state f.currElem f.readBuf :: f.tr }) ∨
    (f.currElem = 105 ∧ f.cert = none ∧ ∃ c, core (elemDone C f) =
      { core f with cert := some c, tr := .elem f.state f.currElem f.readBuf :: f.tr }) ∨
    (f.currElem = 106 ∧ f.result = 0 ∧ f.currLen = 2 ∧ core (elemDone C f) =
      { core f with result := toU16 f.readBuf, tr := .elem f.state f.currElem f.readBuf :: f.tr }) := by
  unfold elemDone handleElem
  dsimp only
  split
  · refine .inl ?_
    repeat' split
    all_goals rfl
  · refine .inl ?_
    repeat' split
    all_goals rfl
  · refine .inl ?_
    repeat' split
    all_goals rfl
  · refine .inl ?_
    repeat' split
    all_goals rfl
  · rename_i e
    split
    · exact .inl rfl
    · rename_i h
      exact .inr (.inl ⟨e, by simpa using h, by rw [e]; rfl⟩)
  · refine .inl ?_
    repeat' split
    all_goals rfl
  · refine .inl ?_
    repeat' split
    all_goals rfl
  · rename_i e
    split
    · exact .inl rfl
    · rename_i h
      exact .inr (.inr (.inl ⟨e, by simpa using h, by rw [e]; rfl⟩))
  · rename_i e
    split
    · exact .inl rfl
    · unfold checkChallenge
      dsimp only
      split
      · exact .inl rfl
      · rename_i c hc
        split
        · exact .inl rfl
        · rename_i ok _
          exact .inr (.inr (.inr (.inl ⟨e, c, f.service.getD [], ok, hc, rfl⟩)))
  · rename_i e
    split
    · exact .inl rfl
    · rename_i h
      unfold getCert
      dsimp only
      split
      · exact .inl rfl
      · rename_i c hc
        exact .inr (.inr (.inr (.inr (.inl ⟨e, by simpa using h, c, rfl⟩))))
  · rename_i e
    split
    · exact .inl rfl
    · rename_i h
      split
      · exact .inl rfl
      · rename_i h2
        refine .inr (.inr (.inr (.inr (.inr ⟨e, by simpa using h, by simpa using h2, ?_⟩))))
        split <;> rfl
  · exact .inl rfl

end Gensio.Certauth
