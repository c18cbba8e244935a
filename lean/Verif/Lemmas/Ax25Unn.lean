import Verif.Lemmas.Ax25Rx

namespace Gensio.Ax25

/-- Nothing that reading depends on has changed. -/
def Rd (c x : Chan) : Prop := rcore x = rcore c ∧ x.inRead = c.inRead

theorem Rd.e {c x : Chan} (h : ecore x = ecore c) : Rd c x := ⟨rcore_ecore h, inRead_ecore h⟩

theorem K.closed {m ph W A V R q} {c x c' : Chan} (h : K m ph W A V R q c) (e : doClose x = some c') (hx : Rd c x) : K m ph W A V R q c' :=
  (h.out' (f := fun _ => { x with state := .reportClose }) hx.1 hx.2 e).1

theorem K.errClosed {m ph W A V R q} {c x c' : Chan} (h : K m ph W A V R q c) (e : doErrClose x = some c') (hx : Rd c x) : K m ph W A V R q c' := by
  unfold doErrClose at e
  split at e
  · exact (h.out' (f := fun _ => { x with state := .closed }) hx.1 hx.2 e).1
  · exact (h.out' (f := fun _ => { x with state := .reportClose }) hx.1 hx.2 e).1
  · exact (h.out' (f := fun _ => { x with state := .reportClose }) hx.1 hx.2 e).1
  · exact (h.out' (f := fun _ => { x with state := .reportClose }) hx.1 hx.2 e).1
  · exact (h.out' (f := fun _ => { x with state := .ioErr }) hx.1 hx.2 e).1

theorem setExtended_nil (c : Chan) (e : Bool) : ∃ mr mw rw ww ex md, setExtended c e [] =
    { c with maxRetries := mr, maxWrite := mw, readwindow := rw, writewindow := ww, extended := ex, modulo := md } ∧
      (e = true → md = 128 ∧ ww < 128 ∧ ex = 1) ∧ (e = false → md = 8 ∧ ww < 8 ∧ ex = 0) := by
  unfold setExtended setExtended.plain
  dsimp only
  cases e with
  | true => exact ⟨_, _, _, _, _, _, rfl, fun _ => ⟨rfl, by split <;> omega, rfl⟩, by simp⟩
  | false => exact ⟨_, _, _, _, _, _, rfl, by simp, fun _ => ⟨rfl, (by (repeat' split) <;> omega), rfl⟩⟩

theorem setExtended_keep {m ph W A V R q} {c : Chan} (h : K m ph W A V R q c) {e : Bool} (hm : m = if e then 128 else 8) :
    K m ph W A V R q (setExtended c e []) := by
  obtain ⟨mr, mw, rw, ww, ex, md, heq, ht, hf⟩ := setExtended_nil c e
  rw [heq]
  have hmd : md = m ∧ ww < m ∧ (ex ≠ 0 ↔ m = 128) := by
    cases e with
    | true =>
      obtain ⟨a, b, c⟩ := ht rfl
      simp at hm
      omega
    | false =>
      obtain ⟨a, b, c⟩ := hf rfl
      simp at hm
      omega
  obtain ⟨m1, m2, m3⟩ := hmd
  refine ⟨⟨h.rl, fun hi => ?_, h.qb⟩, h.ir⟩
  have hi' : c.inChans = true := hi
  obtain ⟨h1, h2, h3, h4, h5, h6, h7, h8, h9, h10, h11, h12, h13, h14⟩ := h.live hi'
  constructor <;> assumption

theorem handleSabm_keep {m ph W A V R q} {c c' : Chan} (h : K m ph W A V R q c) (hi : c.inChans = true) (hp : ph ≠ .opening)
    {pf ic e : Bool} (hm : m = if e then 128 else 8) (hc : handleSabm c pf ic e [] = some c') : K m ph W A V R q c' := by
  have hst := (h.live hi).st
  unfold handleSabm at hc
  split at hc <;> rename_i hs
  · exact absurd (hst.1 hs) hp
  · split at hc
    · exact h.errClosed hc ⟨rcore_ecore (ecore_sendRsp c (.unn .dm) pf), inRead_ecore (ecore_sendRsp c (.unn .dm) pf)⟩
    · cases hc
      exact (setExtended_keep h hm).rsp (cmd := .unn .ua) (fun _ => ⟨rfl, hp⟩) pf
  all_goals first | cases hc | exact h.closed hc (.e (ecore_sendRsp ..))

theorem handleDisc_keep {m ph W A V R q} {c c' : Chan} (h : K m ph W A V R q c) (hi : c.inChans = true) (hp : ph ≠ .peerOpening)
    {pf : Bool} (hc : handleDisc c pf = some c') : K m ph W A V R q c' := by
  have hst := (h.live hi).st
  have hno := h.notOpening hi
  unfold handleDisc at hc
  split at hc <;> rename_i hs
  · cases hc; exact h.rsp (cmd := .unn .dm) (fun _ => hp) pf
  · exact h.closed hc (.e rfl)
  · exact h.closed hc (.e rfl)
  · cases hc
    have hp' := hno (by rw [hs]; simp)
    exact ((h.same (c' := { c with err := geRemclose }) rfl rfl).setState (st := .remDisc) (fun _ => hp') (by simp)).rsp (cmd := .unn .ua) (fun _ => ⟨rfl, hp'⟩) pf
  · cases hc; exact h.rsp (cmd := .unn .ua) (fun _ => ⟨rfl, hno (by rw [hs]; simp)⟩) pf
  · cases hc; exact h.rsp (cmd := .unn .ua) (fun _ => ⟨rfl, hno (by rw [hs]; simp)⟩) pf
  · cases hc

theorem handleDm_keep {m ph W A V R q} {c c' : Chan} (h : K m ph W A V R q c) (hi : c.inChans = true) (hp : ph ≠ .opening)
    {pf : Bool} (hc : handleDm c pf = some c') : K m ph W A V R q c' := by
  have hst := (h.live hi).st
  unfold handleDm at hc
  have key : (if pf = true then doClose { c with err := geRemclose } else some c) = some c' → K m ph W A V R q c' := by
    intro hc
    split at hc
    · exact h.closed hc (.e rfl)
    · cases hc; exact h
  split at hc <;> rename_i hs
  · exact absurd (hst.1 hs) hp
  · exact h.errClosed hc (.e rfl)
  · exact h.closed hc (.e rfl)
  · exact key hc
  · exact key hc
  · exact key hc
  · cases hc

theorem handleUa_keep {m ph W A V R q} {c c' : Chan} (h : K m ph W A V R q c) (hi : c.inChans = true)
    {pf : Bool} (hc : handleUa c pf [] = some c') : ∃ ph', (ph' = ph ∨ (ph = .opening ∧ ph' = .data)) ∧ K m ph' W A V R q c' := by
  have hl := h.live hi
  have hno := h.notOpening hi
  unfold handleUa at hc
  split at hc <;> rename_i hs
  · split at hc
    · cases hc
      refine ⟨.data, .inr ⟨hl.st.1 hs, rfl⟩, ⟨⟨h.rl, fun _ => ?_, h.qb⟩, h.ir⟩⟩
      obtain ⟨h1, h2, h3, h4, h5, h6, h7, h8, h9, h10, h11, h12, h13, h14⟩ := hl
      constructor <;> first | assumption | skip
      · exact fun e he => (h11 e he).data
      · simp
      · simp
    · cases hc; exact ⟨ph, .inl rfl, h⟩
  · rw [hl.ua, if_pos rfl] at hc
    cases hc; exact ⟨ph, .inl rfl, h⟩
  · cases hc
    have hp := hno (by rw [hs]; simp)
    exact ⟨ph, .inl rfl, (h.cmd (cmd := .unn .disc) (fun _ => hp) true).setState (fun _ => hp) (by simp)⟩
  · split at hc
    · exact ⟨ph, .inl rfl, h.closed hc (.e rfl)⟩
    · cases hc; exact ⟨ph, .inl rfl, h⟩
  · cases hc; exact ⟨ph, .inl rfl, h⟩
  · cases hc; exact ⟨ph, .inl rfl, h⟩
  · cases hc

theorem xidEffect_keep {W A V R q ph} {c : Chan} (h : K 128 ph W A V R q c) {g : Conf} (h1 : g.readwindow ≤ 127) : K 128 ph W A V R q (xidEffect c g) := by
  unfold xidEffect
  dsimp only
  refine ⟨⟨h.rl, fun hi => ?_, h.qb⟩, h.ir⟩
  have hi' : c.inChans = true := hi
  obtain ⟨h1, h2, h3, h4, h5, h6, h7, h8, h9, h10, h11, h12, h13, h14⟩ := h.live hi'
  constructor <;> first | assumption | skip
  dsimp only
  split <;> omega

theorem handleXid_keep {m ph W A V R q} {c c' : Chan} (hs : Safe c) (h : K m ph W A V R q c) (hi : c.inChans = true) (hm : m = 128)
    {g : Conf} (h0 : 0 < g.readwindow) (h1 : g.readwindow ≤ 127) {pf ic : Bool} (hc : handleXid c pf ic (formatXid g) = some c') : K m ph W A V R q c' := by
  subst hm
  by_cases ho : c.state = .opn
  · rw [handleXid_gensio ho h0 h1 hs.ww1] at hc
    have hp := h.notOpening hi (by rw [ho]; simp)
    have hx := xidEffect_keep h h1
    split at hc
    · cases hc; exact hx.rsp (cmd := .unn .xid) (fun _ => ⟨rfl, hp⟩) pf
    · cases hc; exact hx
  · unfold handleXid at hc
    rw [if_pos ho] at hc
    cases hc; exact h

theorem WinOk_gensio {c : Chan} (hs : Safe c) {g : Conf} (h0 : 0 < g.readwindow) (h1 : g.readwindow ≤ 127) (pf ic) : WinOk c (.unn .xid pf ic (formatXid g)) := by
  intro pf' ic' b c' e hc
  cases e
  by_cases ho : c.state = .opn
  · rw [handleXid_gensio ho h0 h1 hs.ww1] at hc
    have hx : (xidEffect c g).writewindow ≤ c.conf.writewindow := by
      unfold xidEffect; dsimp only; split <;> omega
    split at hc
    · cases hc
      have e2 : (sendRsp (xidEffect c g) (.unn .xid) pf).writewindow = (xidEffect c g).writewindow := by
        have := congrArg Chan.writewindow (ecore_sendRsp (xidEffect c g) (.unn .xid) pf); exact this
      rw [e2]; exact hx
    · cases hc; exact hx
  · unfold handleXid at hc
    rw [if_pos ho] at hc
    cases hc; exact hs.wwin

/-- The frame as an event of the receiver: what it acknowledges, and for which packet it is. -/
def InOk (m : Nat) (A : Nat) (k : Nat) (p : Pkt) : Frame → Prop
  | .info nr ns _ _ body => nr = A % m ∧ ns = k % m ∧ body = p.1 :: p.2
  | .sup _ nr _ _ => nr = A % m
  | .unn .. => True

/-- A frame of the peer keeps the channel; the peer is in phase `pp`. -/
theorem rx_keep {m ph pp W A V R q} {c c' : Chan} {f : Frame} {k : Nat} {p : Pkt} (hm : m = 8 ∨ m = 128) (hs : Safe c) (h : K m ph W A V R q c)
    (hph : PhOk ph pp) (hf : frAllowed m pp f) (hin : InOk m A k p f) (ha : A ≤ W.length) (hv : V ≤ R)
    (hpos : possible c (.rx f) = true) (hk1 : k < R + m) (hk2 : (∃ nr ns pf ic b, f = .info nr ns pf ic b) → R < k + m)
    (e : rx c f = some c') :
    ∃ ph' V' R' q', (ph' = ph ∨ (ph = .opening ∧ ph' = .data)) ∧ K m ph' W A V' R' q' c' ∧ V ≤ V' ∧ V' ≤ R' ∧
      ((R' = R ∧ q' = q) ∨ ((∃ nr ns pf ic b, f = .info nr ns pf ic b) ∧ c.inChans = true ∧ k = R ∧ R' = R + 1 ∧ q' = q ++ p.2.map (p.1, ·))) := by
  have same : ∀ {x : Chan}, K m ph W A V R q x → ∃ ph' V' R' q', (ph' = ph ∨ (ph = .opening ∧ ph' = .data)) ∧ K m ph' W A V' R' q' x ∧ V ≤ V' ∧ V' ≤ R' ∧
      ((R' = R ∧ q' = q) ∨ ((∃ nr ns pf ic b, f = .info nr ns pf ic b) ∧ c.inChans = true ∧ k = R ∧ R' = R + 1 ∧ q' = q ++ p.2.map (p.1, ·))) :=
    fun hx => ⟨ph, V, R, q, .inl rfl, hx, Nat.le_refl _, hv, .inl ⟨rfl, rfl⟩⟩
  have hpo : pp ≠ .opening → ph ≠ .peerOpening := by
    intro h1 h2; subst h2
    rcases hph with ⟨h, _⟩ | ⟨h, _⟩ | ⟨_, h⟩
    · cases h
    · cases h
    · exact h1 h
  have hpp : pp ≠ .peerOpening → ph ≠ .opening := by
    intro h1 h2; subst h2
    rcases hph with ⟨h, _⟩ | ⟨_, h⟩ | ⟨h, _⟩
    · cases h
    · exact h1 h
    · cases h
  unfold rx at e
  split at e
  · cases e; exact same h
  · rename_i hnot
    have hi : c.inChans = true := by
      cases hc : c.inChans with
      | true => rfl
      | false => exact absurd (.inl hc) hnot
    split at e
    · cases e
    · rename_i c1 er hd
      -- what the handler keeps is kept by a close
      suffices hsuf : ∃ ph' V' R' q', (ph' = ph ∨ (ph = .opening ∧ ph' = .data)) ∧ K m ph' W A V' R' q' c1 ∧ V ≤ V' ∧ V' ≤ R' ∧
          ((R' = R ∧ q' = q) ∨ ((∃ nr ns pf ic b, f = .info nr ns pf ic b) ∧ c.inChans = true ∧ k = R ∧ R' = R + 1 ∧ q' = q ++ p.2.map (p.1, ·))) by
        obtain ⟨ph', V', R', q', a1, a2, a3⟩ := hsuf
        refine ⟨ph', V', R', q', a1, ?_, a3⟩
        split at e
        · exact a2.errClosed e (.e rfl)
        · cases e; exact a2
      have kg : KG m ph W A V R q (dispatch c f) → _ := fun h => same (h c1 er hd).1
      have mp : ∀ {o : Option Chan}, o.map (·, 0) = some (c1, er) → o = some c1 := by
        intro o h; cases o with
        | none => cases h
        | some x => cases h; rfl
      cases f with
      | info nr ns pf ic body =>
        obtain ⟨rfl, rfl, rfl⟩ := hin
        have hpe : pend c = 0 := by
          simp only [possible, Bool.and_eq_true] at hpos
          have h2 := hpos.2
          unfold pend
          split at h2
          · rename_i r hr
            rw [hr]
            obtain ⟨i, rx⟩ := r
            cases rx with
            | none => rfl
            | some _ => simp at h2
          · rename_i hr; rw [hr]
        have hVR : V = R := by have := (h.live hi).pnd; omega
        subst hVR
        obtain ⟨V', R', q', a1, a2, a3, a4⟩ := handleI_keep hm hs h hi (hpo hf) hk1 (hk2 ⟨_, _, _, _, _, rfl⟩) ha hd
        refine ⟨ph, V', R', q', .inl rfl, a1, a2, a3, ?_⟩
        rcases a4 with a4 | a4
        · exact .inl a4
        · exact .inr ⟨⟨_, _, _, _, _, rfl⟩, hi, a4⟩
      | sup s nr pf ic =>
        have hnr : nr = A % m := hin
        subst hnr
        have hp := hpo hf
        cases s
        · exact kg (handleRr_keep hm h hi hp ha pf ic)
        · exact kg (handleRnr_keep hm h hi hp ha pf ic)
        · exact kg (handleRej_keep h hi hp _ pf ic)
        · exact kg (handleSrej_keep h hi hp _ pf ic)
      | unn u pf ic body =>
        cases u
        · obtain ⟨h1, h2, h3⟩ := hf
          subst h2
          exact same (handleSabm_keep h hi (hpp h3) (by simp [h1]) (mp hd))
        · obtain ⟨h1, h2, h3⟩ := hf
          subst h2
          exact same (handleSabm_keep h hi (hpp h3) (by simp [h1]) (mp hd))
        · exact same (handleDisc_keep h hi (hpo hf) (mp hd))
        · exact same (handleDm_keep h hi (hpp hf) (mp hd))
        · obtain ⟨h1, h2⟩ := hf
          subst h1
          obtain ⟨ph', a, b⟩ := handleUa_keep h hi (mp hd)
          exact ⟨ph', V, R, q, a, b, Nat.le_refl _, hv, .inl ⟨rfl, rfl⟩⟩
        · exact hf.elim
        · obtain ⟨h1, h2, g, h3, h4, h5⟩ := hf
          subst h5
          exact same (handleXid_keep hs h hi h1 h3 h4 (mp hd))
        · exact hf.elim

end Gensio.Ax25
