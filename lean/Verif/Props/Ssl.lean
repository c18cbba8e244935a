import Verif.Lemmas.Ssl
/-!
# Properties of the TLS filter (C179–C186)

`Reach r w t f`: `f` is what a new filter with read size `r`, write size `w` and timeout `t` is after some calls, of which OpenSSL, the
BIO, the lower layer and the user keep their side (`Fair`): `BIO_read` and `SSL_read` give no more than they are asked for,
the base calls `ll_write` not again while the read handler runs, and the loop of a call ends.
-/
namespace Gensio.Ssl

/-! ## C179: output -/

/-- What the lower layer took is the beginning of what OpenSSL sent, in order, and as long as there is no error the rest of what
was fetched waits in the buffer, which is large enough.  Missing: states after an error of the lower layer that was
forgotten (`masked`), see `C179_forgotten_error_violated`. -/
theorem C179_output_in_order_partial {r w : Nat} {t : Int} {f : F} (h : Reach r w t f) (hm : f.masked = false) :
    f.toLl <+: f.fromBio ∧ (f.err = none → f.toLl ++ f.xbuf.drop f.xpos = f.fromBio) := by
  have c := h.good.1.core hm
  exact ⟨c.outP, c.out⟩

/-- The buffers are never left: positions and lengths stay inside, with or without a forgotten error. -/
theorem C179_buffers {r w : Nat} {t : Int} {f : F} (h : Reach r w t f) :
    f.xbuf.length ≤ Nat.max (w + 128) 1024 ∧ (f.xbuf ≠ [] → f.xpos < f.xbuf.length) ∧ f.wdata.length ≤ w ∧ f.rpos + f.rdata.length ≤ r := by
  obtain ⟨⟨b, _⟩, s1, s2, s3, _⟩ := h.good
  have x := b.xlen; have y := b.wlen; have z := b.rlen
  rw [s3] at x; rw [s2] at y; rw [s1] at z
  exact ⟨x, b.xp, y, z⟩

/-- The calls of the counterexamples: the handshake is done, OpenSSL wants to write before it takes "A", the lower layer fails. -/
def forget : List Op :=
  [.connect 0 false none,
   .ul [[65]] [{ ssl := some .wantWrite, bio := .data [1, 2, 3] }, { ll := .error (.user 7), ssl := some .wantRead, bio := .later }]]

/-- An error of the lower layer is forgotten (:560-608): `want_write` is set, so `SSL_peek` is called although the write failed, and
its answer takes the place of the error.  The caller is told that all is well and that its byte is written; the three bytes
of OpenSSL and the byte of the caller are gone. -/
theorem C179_forgotten_error_violated :
    (match run (init 100 100 5) forget with
     | some (f, rs) => decide (rs.map (fun r => (r.err, r.count)) = [(none, 0), (none, 1)] ∧ f.err = none ∧ f.fromBio = [1, 2, 3] ∧ f.toLl = [] ∧ f.xbuf = [] ∧
        f.taken = [65] ∧ f.sent = [] ∧ f.wdata = [])
     | none => false) = true := by decide +kernel

/-- Six bytes in two fetches; the lower layer takes 2, then 1, then (next call) the rest. -/
example : (match run (init 100 100 5) [.connect 0 false none,
      .ul [[65, 66], [67]] [{ bio := .data [1, 2, 3] }, { ll := .ok 2 }], .ul [] [{ ll := .ok 1, bio := .data [4, 5, 6] }, { ll := .ok 9 }]] with
    | some (f, rs) => decide (rs.map (·.count) = [0, 3, 0] ∧ f.toLl = [1, 2, 3, 4, 5, 6] ∧ f.sent = [65, 66, 67] ∧ f.xbuf = [])
    | none => false) = true := by decide +kernel

/-! ## C180: the data of the user -/

/-- The count is what was taken: with a connection and nothing waiting, as much as fits of the pieces one after the other; with
something waiting, nothing. -/
theorem C180_count {f f' : F} {sg : List (List UInt8)} {l : List Pass} {r : Ret} (he : f.err = none) (hc : f.connected = true)
    (q : step f (.ul sg l) = some (f', r)) :
    r.count = (if f.wdata = [] then Nat.min f.maxW sg.flatten.length else 0) ∧ f'.taken = f.taken ++ sg.flatten.take r.count := by
  obtain ⟨g, n, g', qa, ql, e1, e2⟩ := ul_split he q
  obtain ⟨g1, n1, qa', _, a2, a3⟩ := accept_spec f sg
  rw [qa] at qa'; cases qa'
  have t := (loop_taken l ql).1
  have t' : f'.taken = g.taken := by rw [e1]; exact t
  by_cases hw : f.wdata = []
  · obtain ⟨hg, hn⟩ := a3 hc hw
    rw [if_pos hw, e2, hn, t', hg, List.length_take]
    exact ⟨rfl, by simp only; rw [← List.take_take, List.take_length]⟩
  · obtain ⟨hg, hn⟩ := a2 hc hw
    rw [if_neg hw, e2, hn, t', hg]
    exact ⟨rfl, by simp⟩

/-- Without a connection or after an error the data is thrown away and reported as written. -/
theorem C180_thrown_away {f f' : F} {sg : List (List UInt8)} {l : List Pass} {r : Ret} (h : f.err ≠ none ∨ f.connected = false)
    (q : step f (.ul sg l) = some (f', r)) : r.count = sg.flatten.length ∧ f'.taken = f.taken := by
  cases he : f.err with
  | some e =>
    simp only [step, F.ulWrite, he] at q
    cases q
    exact ⟨by simp [List.length_flatten], rfl⟩
  | none =>
    have hc : f.connected = false := h.resolve_left (fun x => x he)
    obtain ⟨g, n, g', qa, ql, e1, e2⟩ := ul_split he q
    obtain ⟨g1, n1, qa', a1, _, _⟩ := accept_spec f sg
    rw [qa] at qa'; cases qa'
    obtain ⟨hg, hn⟩ := a1 hc
    have t := (loop_taken l ql).1
    exact ⟨by rw [e2, hn], by rw [e1]; simp only; rw [t, hg]⟩

/-- What was taken is what OpenSSL took followed by what waits.  Missing: a forgotten error. -/
theorem C180_in_order_partial {r w : Nat} {t : Int} {f : F} (h : Reach r w t f) (hm : f.masked = false) :
    f.sent ++ f.wdata <+: f.taken ∧ (f.err = none → f.taken = f.sent ++ f.wdata) := by
  have c := h.good.1.core hm
  exact ⟨c.usrP, c.usr⟩

/-- No call faults; in particular when OpenSSL wants `SSL_write` to be repeated, it is repeated with the same bytes.  Missing: a
forgotten error, see `C180_other_bytes_violated`. -/
theorem C180_no_fault_partial {r w : Nat} {t : Int} {f : F} {o : Op} (h : Reach r w t f) (ho : Fair f o) (hm : f.masked = false) :
    ∃ f' x, step f o = some (f', x) ∧ Reach r w t f' := by
  cases q : step f o with
  | none => rw [step_fault h.good.1 ho q] at hm; cases hm
  | some p => exact ⟨p.1, p.2, rfl, .step h ho q⟩

/-- After the forgotten error OpenSSL still waits for "A", and the next write calls it with "B". -/
theorem C180_other_bytes_violated :
    (match run (init 100 100 5) forget with
     | some (f, _) => decide (f.repeated = some [65] ∧ (step f (.ul [[66]] [{}])).isNone)
     | none => false) = true := by decide +kernel

/-- OpenSSL takes the bytes on the second call; the call between takes nothing. -/
example : (match run (init 100 2 5) [.connect 0 false none, .ul [[65, 66, 67]] [{ ssl := some .wantRead }],
      .ul [[67]] [{ ssl := some .wantRead }], .ul [] [{}], .ul [[67]] [{}]] with
    | some (f, rs) => decide (rs.map (·.count) = [0, 2, 0, 0, 1] ∧ f.sent = [65, 66, 67])
    | none => false) = true := by decide +kernel

/-! ## C181: data that was read -/

/-- What the user took followed by what waits is what `SSL_read` gave, in order. -/
theorem C181_in_order {r w : Nat} {t : Int} {f : F} (h : Reach r w t f) : f.given ++ f.rdata = f.got := h.good.1.bufs.inp

/-- Offers are never empty, and are exactly what was read and not taken yet. -/
theorem C181_offer {r w : Nat} {t : Int} {f f' : F} {o : Op} {x : Ret} {d : List UInt8} (h : Reach r w t f) (ho : Fair f o)
    (q : step f o = some (f', x)) (hd : x.offer = some d) : d ≠ [] ∧ f'.given ++ d = f'.got ∧ d.length ≤ r ∧ f'.inUl = true := by
  have h' : Reach r w t f' := .step h ho q
  have fin : d ≠ [] ∧ f'.rdata = d ∧ f'.inUl = true → d ≠ [] ∧ f'.given ++ d = f'.got ∧ d.length ≤ r ∧ f'.inUl = true := by
    rintro ⟨h1, h2, h3⟩
    refine ⟨h1, by rw [← h2]; exact C181_in_order h', ?_, h3⟩
    have := (C179_buffers h').2.2.2
    rw [h2] at this; omega
  have m : ∀ {g : F} {e : Option Err} {a : Rd} {n : Nat}, g.more e a n = some (f', x) → d ≠ [] ∧ f'.rdata = d ∧ f'.inUl = true := by
    intro g e a n q
    obtain ⟨h1, h2, h3, _⟩ := (more_offer q).1 d hd
    exact ⟨h1, h2, h3⟩
  apply fin
  cases o with
  | ul sg l =>
    exfalso
    cases he : f.err with
    | some e => simp only [step, F.ulWrite, he] at q; cases q; cases hd
    | none =>
      simp only [step, F.ulWrite, he] at q
      obtain ⟨⟨g, n⟩, qa, q⟩ := Option.bind_eq_some_iff.1 q
      obtain ⟨⟨g', e⟩, ql, q⟩ := Option.map_eq_some_iff.1 q
      cases q; cases hd
  | ll buf b a =>
    simp only [step, F.llWrite] at q
    cases he : f.err with
    | some e => rw [he] at q; cases q; cases hd
    | none =>
      rw [he] at q
      simp only at q
      split at q
      · exact m q
      · cases b <;> exact m q
  | ulDone u a =>
    simp only [step, F.ulDone] at q
    cases u with
    | error e => cases q; cases hd
    | ok n =>
      simp only at q
      split at q
      · split at q
        · exact m q
        · cases q; cases hd
      · cases q; cases hd
  | connect now tm a =>
    exfalso
    simp only [step, F.connect] at q
    cases tm with
    | true => cases q; cases hd
    | false => cases a with
      | none => cases q; cases hd
      | some u => cases u <;> cases q <;> cases hd
  | disconnect both a =>
    exfalso
    simp only [step, F.disconnect] at q
    cases both with
    | true => cases q; cases hd
    | false =>
      cases hs : f.shutOk with
      | true => simp only [hs, Bool.not_true, Bool.false_eq_true, if_false] at q; cases q; cases hd
      | false =>
        simp only [hs, Bool.not_false, Bool.false_eq_true, if_false, if_true] at q
        cases a with
        | done => cases q; cases hd
        | sent => cases q; cases hd
        | no u => cases u <;> cases q <;> cases hd
  | cleanup => cases q; cases hd

/-- The user takes what it says: `n` bytes of what was offered, at most all. -/
theorem C181_taken {f f' : F} {n : Nat} {a : Rd} {x : Ret} (q : step f (.ulDone (.ok n) a) = some (f', x)) :
    f'.given = f.given ++ f.rdata.take n := by
  simp only [step, F.ulDone] at q
  split at q
  · rename_i hl
    rw [List.take_of_length_le hl]
    split at q
    · exact (more_offer q).2.1
    · have e : f' = _ := (congrArg Prod.fst (Option.some.inj q)).symm
      rw [e]; unfold F.llEnd; simp only; split <;> rfl
  · have e : f' = _ := (congrArg Prod.fst (Option.some.inj q)).symm
    rw [e]; unfold F.llEnd; simp only; split <;> rfl

/-- Data is left behind only if the user did not take all, or there is an error: when the user has taken everything, it is asked
with the next data at once. -/
theorem C181_goes_on {f f' : F} {a : Rd} {x : Ret} {d : List UInt8} (he : f.err = none) (hc : f.connected = true) (hd : d ≠ []) (ha : a = .data d)
    (q : step f (.ulDone (.ok f.rdata.length) a) = some (f', x)) : x.offer = some d := by
  subst ha
  simp only [step, F.ulDone, Nat.le_refl, if_true] at q
  rw [if_pos ⟨he, hc⟩] at q
  simp only [F.more, if_true] at q
  rw [if_pos ⟨trivial, hd⟩] at q
  simp only [Bool.false_eq_true, if_false] at q
  cases q
  rfl

theorem more_count {f f' : F} {e : Option Err} {a : Rd} {n : Nat} {x : Ret} (q : f.more e a n = some (f', x)) : x.count = n ∧ (e ≠ none → x.err = some .comm ∨ x.err = e) := by
  unfold F.more at q
  revert q
  generalize h : (if f.rdata = [] then _ else _ : F × Option Err) = p
  obtain ⟨g, e'⟩ := p
  intro q
  have he : e ≠ none → e' = some .comm ∨ e' = e := by
    intro hn
    split at h
    · cases a with
      | data d => cases h; exact .inr rfl
      | no r => simp only [hn, if_false] at h; cases h; exact .inl rfl
    · cases h; exact .inr rfl
  simp only at q
  split at q
  · rename_i hc
    split at q
    · cases q
    · cases q
      refine ⟨rfl, fun hn => ?_⟩
      rcases he hn with h | h
      · rw [hc.1] at h; cases h
      · rw [hc.1] at h; exact absurd h.symm hn
  · cases q
    exact ⟨rfl, he⟩

/-- Of what the lower layer gives, exactly the bytes that OpenSSL took are reported as taken; if its BIO fails, that is an error. -/
theorem C181_input {f f' : F} {buf : List UInt8} {b : BioW} {a : Rd} {x : Ret} (he : f.err = none) (hb : buf ≠ []) (q : step f (.ll buf b a) = some (f', x)) :
    (∀ n, b = .took n → x.count = n) ∧ (b = .later → x.count = 0) ∧ (b = .fail → x.err = some .comm ∧ x.count = buf.length) := by
  simp only [step, F.llWrite, he, hb, if_false] at q
  cases b with
  | took n => exact ⟨fun m e => by cases e; exact (more_count q).1, nofun, nofun⟩
  | later => exact ⟨nofun, fun _ => (more_count q).1, nofun⟩
  | fail =>
    refine ⟨nofun, nofun, fun _ => ⟨?_, (more_count q).1⟩⟩
    rcases (more_count q).2 (by simp) with h | h <;> exact h

/-- Two reads; the user takes 1 of 3, then the rest, then the next. -/
example : (match run (init 100 100 5) [.connect 0 false none, .ll [9, 9] (.took 2) (.data [1, 2, 3]), .ulDone (.ok 1) (.no .wantRead),
      .ll [] .later (.no .wantRead), .ulDone (.ok 2) (.data [4]), .ulDone (.ok 1) (.no .wantRead)] with
    | some (f, rs) => decide (rs.map (·.offer) = [none, some [1, 2, 3], none, some [2, 3], some [4], none] ∧ f.given = [1, 2, 3, 4] ∧ f.err = none)
    | none => false) = true := by decide +kernel

/-! ## C182: errors -/

/-- An error stays until the filter is cleaned up. -/
theorem C182_sticky {f f' : F} {o : Op} {x : Ret} (he : f.err ≠ none) (ho : o ≠ .cleanup) (q : step f o = some (f', x)) : f'.err ≠ none := by
  cases hf : f.err with
  | none => exact absurd hf he
  | some e =>
    cases o with
    | ul sg l => simp only [step, F.ulWrite, hf] at q; cases q; exact he
    | ll buf b a => simp only [step, F.llWrite, hf] at q; cases q; exact he
    | ulDone r a =>
      simp only [step, F.ulDone, F.llEnd, hf] at q
      cases r with
      | error y => cases q; simp [hf]
      | ok n =>
        simp only [reduceCtorEq, false_and, if_false] at q
        split at q <;> cases q <;> simp [hf]
    | connect now t a =>
      simp only [step, Option.some.injEq] at q
      have e := congrArg Prod.fst q
      simp only at e
      rw [← e]
      unfold F.connect
      cases hs : f.started <;> cases t <;> (cases a with
        | none => simp [hf]
        | some r => cases r <;> simp [hf, F.handle])
    | disconnect both a =>
      simp only [step, Option.some.injEq] at q
      have e := congrArg Prod.fst q
      simp only at e
      rw [← e]
      unfold F.disconnect
      cases both with
      | true => simp
      | false =>
        cases hs : f.shutOk with
        | true => simp [hf, hs]
        | false =>
          cases a with
          | done => simp [hs]
          | sent => simp [hf, hs]
          | no r => cases r <;> simp [hf, hs]
    | cleanup => exact absurd rfl ho

/-- And it is what every later write is told, which does nothing. -/
theorem C182_reported {f f' : F} {sg : List (List UInt8)} {l : List Pass} {e : Err} {x : Ret} (he : f.err = some e)
    (q : step f (.ul sg l) = some (f', x)) : f' = f ∧ x.err = some e := by
  simp only [step, F.ulWrite, he] at q
  cases q
  exact ⟨rfl, rfl⟩

/-- A write that fails has a cause: the lower layer failed with this error, OpenSSL failed, or the BIO failed.  Missing: `SSL_peek`
that succeeds (`peeked`), see `C182_peek_violated`. -/
theorem C182_cause_partial {f f' : F} {sg : List (List UInt8)} {l : List Pass} {e : Err} {x : Ret} (he : f.err = none)
    (q : step f (.ul sg l) = some (f', x)) (hx : x.err = some e) (hp : f'.peeked = false) :
    ∃ a ∈ l, a.ll = .error e ∨ a.ssl = some .proto ∧ e = .proto ∨ a.ssl = some .closed ∧ e = .remclose ∨ a.ssl = some .other ∧ e = .comm ∨
      a.bio = .fail ∧ e = .comm := by
  obtain ⟨g, n, g', qa, ql, e1, e2⟩ := ul_split he q
  rw [hx] at ql
  rcases (loop_cause l ql).2 e rfl with h | h
  · exact h
  · rw [e1] at hp; exact absurd h (by simpa using hp)

/-- `SSL_peek` succeeds, that is, there is data to read, and the connection fails with `GE_NOMEM` (:600-606): the result 1 stays in
`err`.  Nothing failed. -/
theorem C182_peek_violated :
    (match run (init 100 100 5) [.connect 0 false none, .ll [9] (.took 1) (.no .wantWrite), .ul [] [{ ssl := none }], .ll [] .later (.data [1])] with
     | some (f, rs) => decide (rs.map (·.err) = [none, none, some .nomem, some .nomem] ∧ f.err = some .nomem)
     | none => false) = true := by decide +kernel

/-- The lower layer fails, and later writes are told. -/
example : (match run (init 100 100 5) [.connect 0 false none, .ul [[1]] [{ bio := .data [9] }, { ll := .error (.user 4) }], .ul [[2, 3]] []] with
    | some (_, rs) => decide (rs.map (fun r => (r.err, r.count)) = [(none, 0), (some (.user 4), 1), (some (.user 4), 2)])
    | none => false) = true := by decide +kernel

/-! ## C183: nothing is left behind -/

/-- After a write without an error the lower layer has something left to take, or the BIO said that OpenSSL has nothing more to
send; and the data of the user waits only because the lower layer is busy or OpenSSL said what it waits for. -/
theorem C183_drained {f f' : F} {sg : List (List UInt8)} {l : List Pass} {x : Ret} (he : f.err = none) (q : step f (.ul sg l) = some (f', x))
    (hx : x.err = none) :
    (f'.xbuf ≠ [] ∨ ∃ a, l.getLast? = some a ∧ a.bio = .later) ∧ (f'.wdata ≠ [] → f'.xbuf ≠ [] ∨ f'.wantR = true ∨ f'.wantW = true) := by
  obtain ⟨g, n, g', qa, ql, e1, e2⟩ := ul_split he q
  rw [hx] at ql
  have h := loop_end l ql
  rw [e1]
  exact h

/-- Whenever something waits the base is told so. -/
theorem C183_pending {f : F} {p : Bool} : f.llPending p = true ↔ p = true ∨ f.wdata ≠ [] ∨ f.xbuf ≠ [] ∨ f.wantW = true := by
  simp [F.llPending]
  cases p <;> cases f.wantW <;> by_cases h1 : f.wdata = [] <;> by_cases h2 : f.xbuf = [] <;> simp [h1, h2]

/-- If the base is told that it can write, a write takes something. -/
theorem C183_can_write {r w : Nat} {t : Int} {f f' : F} {sg : List (List UInt8)} {l : List Pass} {x : Ret} (h : Reach r w t f) (hw : 0 < w)
    (he : f.err = none) (hc : f.connected = true) (hcw : f.canWrite = true) (hs : sg.flatten ≠ []) (q : step f (.ul sg l) = some (f', x)) :
    0 < x.count ∧ x.count = Nat.min w sg.flatten.length := by
  have hmw : f.maxW = w := h.good.2.2.1
  have hwd : f.wdata = [] := by
    simp only [F.canWrite, Bool.and_eq_true, List.isEmpty_iff] at hcw
    exact hcw.1
  have c := (C180_count he hc q).1
  rw [if_pos hwd, hmw] at c
  have : 0 < sg.flatten.length := List.length_pos_iff.2 hs
  refine ⟨?_, c⟩
  rw [c]
  simp only [Nat.min_def]
  split <;> omega

/-- The lower layer is full after the first byte: the rest waits and the base is told. -/
example : (match run (init 100 100 5) [.connect 0 false none, .ul [[65]] [{ bio := .data [1, 2] }, { ll := .ok 1 }]] with
    | some (f, _) => decide (f.xbuf.drop f.xpos = [2] ∧ f.llPending false = true ∧ f.canWrite = false)
    | none => false) = true := by decide +kernel

/-! ## C184: the time of an open -/

theorem step_time {f f' : F} {o : Op} {x : Ret} (hs : f.started = true) (q : step f o = some (f', x)) (hf : ∀ sg l, o ≠ .ul sg l)
    (hl : ∀ b c d, o ≠ .ll b c d) (hu : ∀ r a, o ≠ .ulDone r a) :
    f'.started = true ∧ f'.contime = f.contime ∧ f'.timeout = f.timeout := by
  cases o with
  | ul sg l => exact absurd rfl (hf sg l)
  | ll b c d => exact absurd rfl (hl b c d)
  | ulDone r a => exact absurd rfl (hu r a)
  | connect now t a =>
    simp only [step, Option.some.injEq] at q
    have e := congrArg Prod.fst q
    simp only at e
    rw [← e]
    unfold F.connect
    cases t <;> (cases a with
      | none => simp [hs]
      | some r => cases r <;> simp [hs, F.handle])
  | disconnect both a =>
    simp only [step, Option.some.injEq] at q
    have e := congrArg Prod.fst q
    simp only at e
    rw [← e]
    unfold F.disconnect
    cases both with
    | true => simp [hs]
    | false =>
      cases hk : f.shutOk with
      | true => simp [hs, hk]
      | false =>
        cases a with
        | done => simp [hs, hk]
        | sent => simp [hs, hk]
        | no r => cases r <;> simp [hs, hk]
  | cleanup => cases q; exact ⟨hs, rfl, rfl⟩

/-- Calls to connect, one after the other. -/
def connects (l : List (Int × No)) : List Op := l.map fun p => .connect p.1 false (some p.2)

theorem run_connects {f f' : F} {rs : List Ret} (l : List (Int × No)) : f.started = true → run f (connects l) = some (f', rs) →
    f'.started = true ∧ f'.contime = f.contime ∧ f'.timeout = f.timeout := by
  induction l generalizing f rs with
  | nil => intro h q; cases q; exact ⟨h, rfl, rfl⟩
  | cons p l ih =>
    intro h q
    unfold connects at q
    rw [List.map_cons] at q
    unfold run at q
    obtain ⟨⟨g, x⟩, q1, q⟩ := Option.bind_eq_some_iff.1 q
    obtain ⟨⟨g', rs'⟩, q2, q⟩ := Option.map_eq_some_iff.1 q
    cases q
    obtain ⟨h1, h2, h3⟩ := step_time h q1 (by simp) (by simp) (by simp)
    obtain ⟨i1, i2, i3⟩ := ih h1 q2
    exact ⟨i1, i2.trans h2, i3.trans h3⟩

/-- In the first open of a filter every wait ends when the timeout has passed since the first call, whatever was called between.
Missing: further opens, see `C184_second_open_violated`. -/
theorem C184_deadline_partial {r w : Nat} {t t0 now : Int} {a : No} {l : List (Int × No)} {f f' : F} {rs : List Ret} {x : Ret}
    (q : run (init r w t) (connects ((t0, a) :: l)) = some (f, rs)) (q' : step f (.connect now false (some .wantRead)) = some (f', x)) :
    x.err = some .retry ∧ 0 ≤ x.wait ∧ (now ≤ t0 + t → now + x.wait = t0 + t) ∧ (t0 + t ≤ now → x.wait = 0) := by
  unfold connects at q
  rw [List.map_cons] at q
  unfold run at q
  obtain ⟨⟨g, y⟩, q1, q⟩ := Option.bind_eq_some_iff.1 q
  obtain ⟨⟨g', rs'⟩, q2, q⟩ := Option.map_eq_some_iff.1 q
  cases q
  have hg : g.started = true ∧ g.contime = t0 + t := by
    cases a <;> cases q1 <;> exact ⟨rfl, rfl⟩
  obtain ⟨h1, h2, h3⟩ := run_connects l hg.1 q2
  simp only [step, F.connect, h1, if_true, F.handle, Bool.false_eq_true, if_false, Option.some.injEq, Prod.mk.injEq] at q'
  obtain ⟨_, q'⟩ := q'
  rw [h2, hg.2] at q'
  subst q'
  refine ⟨rfl, ?_, ?_, ?_⟩ <;> simp only <;> split <;> omega

/-- `ssl_cleanup` leaves `start_time_set` as it is (:764-791), so the second open, at time 1000 with a timeout of 5, has no time at
all. -/
theorem C184_second_open_violated :
    (match run (init 100 100 5) [.connect 0 false (some .wantRead), .connect 1 false none, .cleanup, .connect 1000 false (some .wantRead)] with
     | some (_, rs) => decide (rs.map (·.wait) = [5, 0, 0, 0])
     | none => false) = true := by decide +kernel

/-- The waits of one open. -/
example : (match run (init 100 100 5) (connects [(10, .wantRead), (12, .wantWrite), (16, .wantRead)]) with
    | some (_, rs) => decide (rs.map (·.wait) = [5, 3, 0])
    | none => false) = true := by decide +kernel

/-! ## C185: authentication -/

/-- The result of an open with a certificate: `none` if the handshake fails, else the error and whether the gensio is
authenticated. -/
def opened (server : Bool) (pre : Nat) (store always : Bool) (sys own post : Nat) (allow : Bool) : Option (Nat × Bool) :=
  (handshake server (certVerify pre store always sys own)).map fun ver => checkOpen true true ver post allow

/-- Without a store of its own and without a refusal of the user, an authenticated gensio has a verified certificate, and an
open succeeds with another certificate only if the user wants that.  Missing: a store (client), refusals. -/
theorem C185_authenticated_partial {server always allow : Bool} {pre sys own post rv : Nat} {auth : Bool} (hp : pre = 0 ∨ pre = 2)
    (h : opened server pre false always sys own post allow = some (rv, auth)) :
    (auth = true ↔ sys = 0) ∧ (rv = 0 → sys = 0 ∨ allow = true ∨ post = 0) := by
  unfold opened certVerify at h
  rw [if_neg (by omega)] at h
  rw [if_neg (by decide)] at h
  unfold handshake at h
  by_cases hh : server = true ∧ ((if sys = 0 ∨ always = true then 1 else 0, sys) : Int × Nat).1 ≤ 0
  · rw [if_pos hh] at h; cases h
  · rw [if_neg hh] at h
    simp only [Option.map_some, Option.some.injEq, checkOpen, if_true, Bool.not_true, Bool.false_eq_true, if_false, Prod.mk.injEq] at h
    obtain ⟨h1, h2⟩ := h
    refine ⟨by rw [← h2]; simp, fun hr => ?_⟩
    rw [hr] at h1
    cases allow with
    | true => exact .inr (.inl rfl)
    | false =>
      by_cases hpost : post = 2
      · subst hpost
        by_cases hs : sys = 0
        · exact .inl hs
        · simp [hs] at h1
      · simp [hpost] at h1
        exact .inr (.inr h1)

/-- A server does not accept a certificate that its own store does not verify or that the user refuses before. -/
theorem C185_server {always allow : Bool} {pre sys own post : Nat} {store : Bool} (h : (pre ≠ 0 ∧ pre ≠ 2) ∨ (store = true ∧ own ≠ 0)) :
    opened true pre store always sys own post allow = none := by
  unfold opened certVerify handshake
  rcases h with h | ⟨h1, h2⟩
  · rw [if_pos h]; rfl
  · by_cases hp : pre ≠ 0 ∧ pre ≠ 2
    · rw [if_pos hp]; rfl
    · rw [if_neg hp, if_pos h1, if_neg h2]; rfl

/-- Without a certificate there is no authentication, and no open if one is expected and the user does not allow it. -/
theorem C185_no_cert {expect : Bool} {ver post : Nat} {allow : Bool} :
    (checkOpen expect false ver post allow).2 = false ∧ (expect = true → allow = false → (checkOpen expect false ver post allow).1 = 21) := by
  cases expect <;> cases allow <;> simp [checkOpen]

/-- The refusal of the user after the handshake is the error of the open, if failures are not allowed. -/
theorem C185_post {ver post : Nat} (h : post ≠ 2) : (checkOpen true true ver post false).1 = post := by simp [checkOpen, h]

/-- A client whose user refuses the certificate (`GENSIO_EVENT_PRECERT_VERIFY`, :1133-1142) opens all the same and is authenticated, whatever
the certificate is: the mode of a client is `SSL_VERIFY_NONE`, so OpenSSL ignores the 0 that `gensio_ssl_cert_verify` returns, and
the context has no error. -/
theorem C185_refusal_violated (sys : Nat) : opened false 5 false false sys 0 2 false = some (0, true) := rfl

/-- A client with a store of its own that does not verify the certificate: the error is in another context (:1144-1155), so the
gensio is authenticated. -/
theorem C185_store_violated (sys own : Nat) (h : own ≠ 0) : opened false 0 true false sys own 2 false = some (0, true) := by
  unfold opened certVerify
  rw [if_neg (by decide)]
  rfl

/-- The user refuses after the handshake and failures are allowed: the gensio is still marked as authenticated (:299-303). -/
theorem C185_post_violated : opened false 0 false false 0 0 5 true = some (0, true) := rfl

/-- A bad certificate at a client without any store: not opened; with `allow_authfail`, opened and not authenticated. -/
example : opened false 0 false false 20 0 2 false = some (22, false) ∧ opened false 0 false false 20 0 2 true = some (0, false) := ⟨rfl, rfl⟩

/-! ## C186: certificates and names -/

/-- Certificate calls one after the other. -/
def certs (c : Cert) : List CertOp → Option Cert
  | [] => some c
  | o :: l => (c.step o).bind fun c => certs c l

/-- One open that reaches the end of the handshake, then the close. -/
def opens (bad : Bool) : List CertOp := [.arrive, .verify, .check bad, .cleanup]

/-- However often a gensio is opened and closed, if every handshake comes to its end, all references are given back.  Missing:
handshakes that fail. -/
theorem C186_certs_partial (l : List Bool) : certs {} (l.flatMap opens) = some {} := by
  induction l with
  | nil => rfl
  | cons b l ih =>
    cases b
    · simpa [opens, certs, Cert.step, Cert.free, Cert.sslFree] using ih
    · simpa [opens, certs, Cert.step, Cert.free, Cert.sslFree] using ih

/-- The handshake fails after the certificate was seen: the reference that `remcert` borrows (:1104) is given back too, and OpenSSL's
own comes one too late. -/
theorem C186_over_free_violated : certs {} [.arrive, .verify, .cleanup] = none ∧ certs {} [.arrive, .verify, .reject, .cleanup] = none := ⟨rfl, rfl⟩

/-- Name calls one after the other. -/
def names (s : Names) : List NameOp → Option Names
  | [] => some s
  | o :: l => (s.step o).bind fun s => names s l

/-- Once the user name was set the caller cannot free its own memory without the name going away: the copy (block 1) is lost, and
the pointer of the caller is kept (:1012). -/
theorem C186_name_violated :
    names {} [.alloc, .set 0, .free 0, .get] = none ∧
    (names {} [.alloc, .set 0, .free 0]).map (·.live) = some [1] ∧
    names {} [.alloc, .set 0, .alloc, .set 2, .free 0] = none := by decide +kernel

/-- If the callers keep all their blocks, and set the name only once, reading it is fine. -/
theorem C186_name_partial (n : Nat) : (names {} (.alloc :: .set 0 :: List.replicate n .get)).isSome = true := by
  have h : ∀ n, names { live := [1, 0], next := 2, username := some 0 } (List.replicate n .get) = some { live := [1, 0], next := 2, username := some 0 } := by
    intro n
    induction n with
    | zero => rfl
    | succ n ih =>
      rw [List.replicate_succ]
      exact ih
  change (names { live := [1, 0], next := 2, username := some 0 } (List.replicate n .get)).isSome = true
  rw [h]; rfl

end Gensio.Ssl
