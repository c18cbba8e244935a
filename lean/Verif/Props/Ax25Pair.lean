import Verif.Lemmas.Ax25Pair
import Verif.Props.Ax25

/-!
# AX.25: two stations
-/
namespace Gensio.Ax25

theorem opening_frames {m : Nat} : ∀ {L : List Frame}, (∀ f ∈ L, frAllowed m .opening f) → IOk m [] 0 L ∧ AckOk m 0 0 L := by
  intro L
  induction L with
  | nil => intro _; exact ⟨Nat.le_refl _, Nat.le_refl _⟩
  | cons f L ih =>
    intro h
    have hf := h f (by simp)
    have hL := ih fun g hg => h g (by simp [hg])
    cases f with
    | info => exact absurd rfl hf
    | sup => exact absurd rfl hf
    | unn => exact hL

/-- The modulus two stations use. -/
def modOf (f : Conf) : Nat := if f.extended ≠ 0 then 128 else 8

theorem modOf_or (f : Conf) : modOf f = 8 ∨ modOf f = 128 := by
  unfold modOf; split <;> simp

/-- A channel with nothing written or read. -/
theorem fresh_keep {m ph : _} {c : Chan} {e : Bool} (hm : m = if e then 128 else 8) (hst : c.state = .inOpen ↔ ph = .opening) (hr : c.readLen = 0) (hi : c.inRead = none)
    (hw : c.writeLen = 0) (hv : c.vs = 0) (hvr : c.vr = 0) (hb : c.ownBsy = false) (hsl : c.sendLen = 0) (hq : c.cmdrsp = []) (hu : c.conf.ignoreUa = true) :
    K m ph [] 0 0 0 [] (setExtended c e []) := by
  obtain ⟨mr, mw, rw, ww, ex, md, heq, ht, hf⟩ := setExtended_nil c e
  rw [heq]
  have hmd : md = m ∧ ww < m ∧ (ex ≠ 0 ↔ m = 128) := by
    cases e with
    | true =>
      obtain ⟨a, b, c⟩ := ht rfl
      simp at hm
      omega
    | false =>
      obtain ⟨a, b, c⟩ := hf rfl
      simp at hm
      omega
  obtain ⟨m1, m2, m3⟩ := hmd
  have hpend : pend { c with maxRetries := mr, maxWrite := mw, readwindow := rw, writewindow := ww, extended := ex, modulo := md } = 0 := pend_none hi
  refine ⟨⟨by dsimp only; omega, fun _ => ?_, ?_⟩, fun r h => ?_⟩
  · exact { md := m1, ex := m3, win := m2, wlm := (by dsimp only; omega), vs := (by simp [hv]), wl := (by dsimp only; omega), ack := (by dsimp only; simp),
            slots := (by intro j h1 h2; dsimp only at h2; omega), vr := (by simp [hvr]), pnd := (by rw [hpend]), cmds := (by dsimp only; rw [hq]; simp),
            st := hst, op := fun _ => ⟨hb, hr, hpend, hsl⟩, ua := hu }
  · simp [qb, rq, hr]
  · have : c.inRead = some r := h
    rw [hi] at this; cases this

theorem alone_one {f : Conf} (hf : confOk f = true) (h2 : 2 ≤ f.writewindow) (hm : f.maxWrite < 18446744073709551616) (hu : f.ignoreUa = true)
    {a : Side} (h : Alone f a) : One (modOf f) .opening [] 0 0 0 [] a ∧ a.got = [] := by
  induction h with
  | start =>
    refine ⟨⟨open_safe hf h2 hm (.inl rfl), ?_, by simp, rfl⟩, rfl⟩
    unfold openChan
    refine sendSabm_keep (modOf_or f) ?_ ?_ (by simp)
    · have := open_safe hf h2 hm (c := openChan (alloc f)) (.inl rfl)
      unfold openChan at this
      exact this.of (by simp)
    · refine fresh_keep (e := f.extended ≠ 0) ?_ ?_ rfl rfl rfl rfl rfl rfl rfl rfl hu
      · simp [modOf]
      · simp
  | own ev _ hp hb e ih =>
    obtain ⟨h1, h2⟩ := ih
    have hs' := own_safe h1.safe hp hb e
    rename_i a a' _
    by_cases hw : ∃ sg pid, ev = .write sg pid
    · obtain ⟨sg, pid, rfl⟩ := hw
      cases hx : write a.c sg pid with
      | none => simp [Ax25.own, hx] at e
      | some x =>
        obtain ⟨c', er, n⟩ := x
        simp only [Ax25.own, hx, Option.map_some, Option.some.injEq] at e
        subst e
        rcases write_keep (modOf_or f) h1.safe h1.k hb hx with ⟨rfl, rfl⟩ | ⟨hi, hk⟩
        · exact ⟨⟨h1.safe, h1.k, h1.fr, by simpa using h1.sent⟩, h2⟩
        · have hst := (h1.k.live hi).st.2 rfl
          unfold write at hx
          dsimp only at hx
          rw [if_pos (by rw [hst]; simp)] at hx
          cases hx
          exact ⟨⟨h1.safe, h1.k, h1.fr, by simpa using h1.sent⟩, h2⟩
    · obtain ⟨L, k1, ⟨V', q', u1, u2, u3, u4, u5⟩, k3⟩ := own_upd (modOf_or f) h1 (Nat.le_refl 0) hb (fun sg pid h => hw ⟨sg, pid, h⟩) e
      have hV : V' = 0 := by omega
      subst hV
      rw [h2, List.append_nil, List.prefix_nil, List.append_eq_nil_iff] at u5
      obtain ⟨g1, rfl⟩ := u5
      rw [k1]
      refine ⟨⟨hs', u1, ?_, h1.sent⟩, g1⟩
      intro fr hfr
      rcases List.mem_append.1 hfr with h | h
      · exact h1.fr fr h
      · rcases k3 with rfl | ⟨f', rfl, h', _⟩
        · simp at h
        · rw [List.mem_singleton.1 h]; exact h'
  | lose i _ ih =>
    obtain ⟨h1, h2⟩ := ih
    exact ⟨⟨h1.safe, h1.k, fun fr hfr => h1.fr fr (List.mem_of_mem_eraseIdx hfr), h1.sent⟩, h2⟩

theorem pair_both {f g : Conf} (hf : confOk f = true) (hg : confOk g = true) (hf2 : 2 ≤ f.writewindow) (hg2 : 2 ≤ g.writewindow)
    (hfm : f.maxWrite < 18446744073709551616) (hgm : g.maxWrite < 18446744073709551616) (hfu : f.ignoreUa = true) (hgu : g.ignoreUa = true)
    {a b : Side} (h : Pair f g a b) : Both (modOf f) a b := by
  induction h with
  | accept ha hk =>
    rename_i c L s t k pf ic body
    obtain ⟨h1, h2⟩ := alone_one hf hf2 hfm hfu ha
    have hfr := h1.fr _ (List.mem_cons_self ..)
    have hLs : ∀ x ∈ L, frAllowed (modOf f) .opening x := fun x hx => h1.fr x (List.mem_cons_of_mem _ hx)
    obtain ⟨i1, i2⟩ := opening_frames hLs
    have ht : t = [] := h2
    subst ht
    have hmk : body = [] ∧ modOf f = if decide (k = Unn.sabme) = true then 128 else 8 := by
      rcases hk with rfl | rfl
      · exact ⟨hfr.2.1, by simpa using hfr.1⟩
      · exact ⟨hfr.2.1, by simpa using hfr.1⟩
    obtain ⟨rfl, hmk⟩ := hmk
    have hs := open_safe hg hg2 hgm (c := acceptChan g pf (k = .sabme) []) (.inr ⟨_, _, _, rfl⟩)
    have hkb : K (modOf f) .peerOpening [] 0 0 0 [] (acceptChan g pf (k = .sabme) []) := by
      unfold acceptChan
      dsimp only
      have h0 : K (modOf f) .peerOpening [] 0 0 0 [] (setExtended { alloc g with state := .opn, inChans := true } (decide (k = .sabme)) []) :=
        fresh_keep hmk (by simp) rfl rfl rfl rfl rfl rfl rfl rfl hgu
      have h1 := h0.rsp (cmd := .unn .ua) (fun _ => ⟨rfl, by simp⟩) pf
      split
      · rename_i hx
        refine h1.cmd (cmd := .unn .xid) (fun hi => ⟨(h1.live hi).ex.1 hx, by simp⟩) true
      · exact h1
    have hm0 : 0 < modOf f := by rcases modOf_or f with h | h <;> omega
    refine ⟨.opening, .peerOpening, [], [], 0, 0, 0, 0, 0, 0, [], [], .inr (.inl ⟨rfl, rfl⟩), ⟨h1.safe, h1.k, hLs, h1.sent⟩, ⟨hs, hkb, by simp, rfl⟩, ?_, ?_⟩
    · exact ⟨i1, Nat.le_refl _, Nat.le_refl _, by simpa using hm0, fun _ => rfl, by simp⟩
    · exact ⟨Nat.le_refl _, i2, Nat.le_refl _, by simpa using hm0, fun _ => rfl, by simp⟩
  | swap _ ih => exact ih.symm
  | own ev _ hp hb e ih => exact ih.own (modOf_or f) hp hb e
  | lose i _ ih => exact ih.lose i
  | recv _ hb hp e ih => exact ih.recv (modOf_or f) hb hp e

/-- One move of a run of two stations; `true` is the first one. -/
inductive Mv
  | own (first : Bool) (ev : Ev)
  | recv (first : Bool)
  | lose (first : Bool) (i : Nat)

/-- `Benign` for the events of a station itself. -/
def benign (c : Chan) : Ev → Bool
  | .rx _ => false
  | .write sg _ => decide (sg.dropLast.flatten.length ≤ c.maxWrite)
  | .readRet (.error _) => c.inChans || decide (c.err ≠ 0)
  | _ => true

theorem benign_ok {c : Chan} {ev : Ev} (h : benign c ev = true) : Benign c ev := by
  unfold benign at h
  split at h
  · cases h
  · simpa [Benign] using h
  · simpa [Benign] using h
  · unfold Benign
    split
    all_goals first | trivial | simp_all

/-- One move. -/
def move (a b : Side) : Mv → Option (Side × Side)
  | .own true ev => if possible a.c ev && benign a.c ev then (own a ev).map (·, b) else none
  | .own false ev => if possible b.c ev && benign b.c ev then (own b ev).map (a, ·) else none
  | .recv true => match b.out with
    | [] => none
    | f :: L => if possible a.c (.rx f) then (rx a.c f).map fun c => ({ a with c := c }, { b with out := L }) else none
  | .recv false => match a.out with
    | [] => none
    | f :: L => if possible b.c (.rx f) then (rx b.c f).map fun c => ({ a with out := L }, { b with c := c }) else none
  | .lose true i => some ({ a with out := a.out.eraseIdx i }, b)
  | .lose false i => some (a, { b with out := b.out.eraseIdx i })

/-- Moves one after the other. -/
def play (a b : Side) : List Mv → Option (Side × Side)
  | [] => some (a, b)
  | x :: l => match move a b x with | none => none | some (a, b) => play a b l

theorem move_pair {f g : Conf} {a b a' b' : Side} (h : Pair f g a b) {x : Mv} (e : move a b x = some (a', b')) : Pair f g a' b' := by
  cases x with
  | own first ev =>
    cases first with
    | true =>
      simp only [move] at e
      split at e
      · rename_i hc
        simp only [Bool.and_eq_true] at hc
        cases ho : own a ev with
        | none => rw [ho] at e; cases e
        | some x => rw [ho] at e; cases e; exact .own ev h hc.1 (benign_ok hc.2) ho
      · cases e
    | false =>
      simp only [move] at e
      split at e
      · rename_i hc
        simp only [Bool.and_eq_true] at hc
        cases ho : own b ev with
        | none => rw [ho] at e; cases e
        | some x => rw [ho] at e; cases e; exact .swap (.own ev h.swap hc.1 (benign_ok hc.2) ho)
      · cases e
  | recv first =>
    cases first with
    | true =>
      simp only [move] at e
      split at e
      · cases e
      · rename_i f L hb
        split at e
        · rename_i hp
          cases hr : rx a.c f with
          | none => rw [hr] at e; cases e
          | some c' => rw [hr] at e; cases e; exact .recv h hb hp hr
        · cases e
    | false =>
      simp only [move] at e
      split at e
      · cases e
      · rename_i f L hb
        split at e
        · rename_i hp
          cases hr : rx b.c f with
          | none => rw [hr] at e; cases e
          | some c' => rw [hr] at e; cases e; exact .swap (.recv h.swap hb hp hr)
        · cases e
  | lose first i =>
    cases first with
    | true => cases e; exact .lose i h
    | false => cases e; exact .swap (.lose i h.swap)

theorem play_pair {f g : Conf} : ∀ {l : List Mv} {a b a' b' : Side}, Pair f g a b → play a b l = some (a', b') → Pair f g a' b' := by
  intro l
  induction l with
  | nil => intro a b a' b' h e; cases e; exact h
  | cons x l ih =>
    intro a b a' b' h e
    unfold play at e
    cases hx : move a b x with
    | none => rw [hx] at e; cases e
    | some y => rw [hx] at e; exact ih (move_pair h hx) e

/-- The first station after sending its SABM `n + 1` times, one of which has made the second. -/
def exPair (f : Conf) (n : Nat) (l : List Mv) : Option (Side × Side) :=
  match (List.replicate n [Ev.t1, .tx .full]).flatten.foldl (fun s ev => s.bind (own · ev)) (own ⟨openChan (alloc f), [], [], []⟩ (.tx .full)) with
  | some ⟨c, .unn k pf _ body :: L, s, t⟩ =>
    if k = .sabm ∨ k = .sabme then play ⟨c, L, s, t⟩ ⟨acceptChan f pf (k = .sabme) body, [], [], []⟩ l else none
  | _ => none

theorem exPair_pair {f : Conf} {n : Nat} {l : List Mv} {a b : Side} (h : exPair f n l = some (a, b)) : Pair f f a b := by
  have key : ∀ (l : List Ev) (s s' : Side), (∀ ev ∈ l, ev = .t1 ∨ ev = .tx .full) → Alone f s → l.foldl (fun s ev => s.bind (own · ev)) (some s) = some s' → Alone f s' := by
    intro l
    induction l with
    | nil => intro s s' _ h e; cases e; exact h
    | cons ev l ih =>
      intro s s' hm hs e
      rw [List.foldl_cons] at e
      have e' : (some s).bind (own · ev) = own s ev := rfl
      rw [e'] at e
      cases ho : own s ev with
      | none =>
        rw [ho] at e
        have : ∀ l : List Ev, l.foldl (fun (s : Option Side) ev => s.bind (own · ev)) none = none := by
          intro l; induction l with
          | nil => rfl
          | cons x l ih => exact ih
        rw [this] at e; cases e
      | some s1 =>
        rw [ho] at e
        refine ih s1 s' (fun x hx => hm x (by simp [hx])) (.own ev hs ?_ ?_ ho) e
        · rcases hm ev (by simp) with rfl | rfl <;> rfl
        · rcases hm ev (by simp) with rfl | rfl <;> trivial
  unfold exPair at h
  split at h
  · rename_i c k pf ic body L s t hs
    have ha : Alone f ⟨c, .unn k pf ic body :: L, s, t⟩ := by
      cases ho : own ⟨openChan (alloc f), [], [], []⟩ (.tx .full) with
      | none =>
        rw [ho] at hs
        have : ∀ l : List Ev, l.foldl (fun (s : Option Side) ev => s.bind (own · ev)) none = none := by
          intro l; induction l with
          | nil => rfl
          | cons x l ih => exact ih
        rw [this] at hs; cases hs
      | some s1 =>
        rw [ho] at hs
        refine key _ s1 _ ?_ (.own (.tx .full) .start rfl trivial ho) hs
        intro ev hev
        simp only [List.mem_flatten, List.mem_replicate] at hev
        obtain ⟨x, ⟨_, rfl⟩, hx⟩ := hev
        simpa using hx
    split at h
    · rename_i hk
      exact play_pair (.accept ha hk) h
    · cases h
  · cases h

/-! ## C104: data arrives in order and once -/

/-- A read callback that takes `n` bytes is given no more than `n` bytes: the first ones of the packet that was offered. -/
theorem C104_taken {c c' : Chan} {n : Nat} {o : List (UInt8 × UInt8)} (h : readRet c (.ok n) = some (c', o)) :
    ∃ ir d, c.inRead = some ir ∧ c.rd[ir.idx]? = some d ∧ o = (d.rest.take n).map (d.pid, ·) := by
  unfold readRet at h
  split at h
  · cases h
  · rename_i ir hir
    dsimp only at h
    cases hd : c.rd[ir.idx]? with
    | none => rw [hd] at h; cases h
    | some d =>
      rw [hd] at h
      refine ⟨ir, d, hir, hd, ?_⟩
      dsimp only at h
      split at h
      · cases h; rfl
      · cases h
        rw [List.take_of_length_le (by omega)]

/-- C104, partial: whatever frames are lost, what the read callbacks of a station have taken is a beginning of what the writes of the other
station have taken, byte for byte and with the same PIDs; and if both channels are up and a station has no packet waiting for an
acknowledgement then what the other has taken and has stored for reading is all of it.  Missing: frames that are repeated, reordered or
changed, a configured window of 1, and `ign_emb_ua` off (`C104_duplicate_ua_violated`). -/
theorem C104_in_order_once_partial {f g : Conf} (hf : confOk f = true) (hg : confOk g = true) (hf2 : 2 ≤ f.writewindow) (hg2 : 2 ≤ g.writewindow)
    (hfm : f.maxWrite < 18446744073709551616) (hgm : g.maxWrite < 18446744073709551616) (hfu : f.ignoreUa = true) (hgu : g.ignoreUa = true)
    {a b : Side} (h : Pair f g a b) :
    a.got <+: b.sent ∧ b.got <+: a.sent ∧
      (a.c.inChans = true → b.c.inChans = true → a.c.writeLen = 0 →
        b.got ++ ((List.range b.c.readLen).map fun j => b.c.rd[(b.c.readPos + j) % b.c.conf.readwindow]?.getD ⟨[], 0⟩).flatMap (fun d => d.rest.map (d.pid, ·)) =
          a.sent) := by
  obtain ⟨pa, pb, Wa, Wb, Aa, Ab, Va, Vb, Ra, Rb, qa, qb', h1, h2, h3, h4, h5⟩ := pair_both hf hg hf2 hg2 hfm hgm hfu hgu h
  have pre : ∀ {W : List Pkt} {n : Nat}, flat (W.take n) <+: flat W := by
    intro W n
    have : flat W = flat (W.take n) ++ flat (W.drop n) := by
      unfold flat; rw [← List.flatMap_append, List.take_append_drop]
    rw [this]; exact List.prefix_append _ _
  refine ⟨?_, ?_, ?_⟩
  · rw [h3.sent]; exact ((List.prefix_append _ _).trans h5.gp).trans pre
  · rw [h2.sent]; exact ((List.prefix_append _ _).trans h4.gp).trans pre
  · intro ha hb hw
    have hl := (h2.k.live ha).ack
    have h6 := h4.ak.le; have h7 := h4.vr; have h8 := h4.io.le
    have hR : Rb = Wa.length := by omega
    have := h4.gl hb
    rw [hR, List.take_length] at this
    rw [h2.sent, ← this, ← h3.k.qb]
    rfl

theorem exPair_any {f : Conf} {n : Nat} {l : List Mv} {P : Side × Side → Bool} (h : (exPair f n l).any P = true) :
    ∃ a b, Pair f f a b ∧ P (a, b) = true := by
  cases hx : exPair f n l with
  | none => rw [hx] at h; cases h
  | some x => obtain ⟨a, b⟩ := x; rw [hx] at h; exact ⟨a, b, exPair_pair hx, h⟩

/-- A run for C104: the first of two packets is lost, the second is rejected, both are sent again, and both are read. -/
def exLossy : List Mv :=
  [.own false (.tx .full), .recv true, .own true (.write [[1, 2], [3]] 240), .own true (.write [[4]] 204), .own true (.tx .full), .own true (.tx .full),
   .own false (.readEn true), .lose true 0, .recv false, .own false (.tx .full), .recv true, .own true (.tx .full), .own true (.tx .full), .recv false,
   .own false (.readRet (.ok 3)), .recv false, .own false (.readRet (.ok 1))]

/-- Both stations of the run for C104 are a pair, and everything written is read. -/
example : ∃ a b, Pair { exConf with extended := 0 } { exConf with extended := 0 } a b ∧ a.sent = [(240, 1), (240, 2), (240, 3), (204, 4)] ∧ b.got = a.sent := by
  obtain ⟨a, b, h, e⟩ := exPair_any (f := { exConf with extended := 0 }) (n := 0) (l := exLossy)
    (P := fun x => decide (x.1.sent = [(240, 1), (240, 2), (240, 3), (204, 4)] ∧ x.2.got = x.1.sent)) (by decide +kernel)
  exact ⟨a, b, h, of_decide_eq_true e⟩

/-- C104 violated, with `ign_emb_ua` off: a SABM sent twice is answered twice, and the second UA makes the first station start its sequence
numbers again while the second has received a packet.  The next packet is taken for one that was already received: the second byte written
is never read, the third is, and both channels stay open without an error. -/
theorem C104_duplicate_ua_violated :
    ∃ a b, Pair { exConf with extended := 0, ignoreUa := false } { exConf with extended := 0, ignoreUa := false } a b ∧
      a.sent = [(240, 1), (240, 2), (240, 3)] ∧ b.got = [(240, 1), (240, 3)] ∧ a.c.state = .opn ∧ b.c.state = .opn ∧ a.c.err = 0 ∧ b.c.err = 0 := by
  obtain ⟨a, b, h, e⟩ := exPair_any (f := { exConf with extended := 0, ignoreUa := false }) (n := 1)
    (l := [.own false (.tx .full), .recv true, .own true (.write [[1]] 240), .own true (.tx .full), .own false (.readEn true), .recv false, .own false (.tx .full),
      .recv true, .recv false, .own false (.readRet (.ok 1)), .own true (.write [[2]] 240), .own true (.write [[3]] 240), .own true (.tx .full), .own true (.tx .full),
      .recv false, .recv false, .own false (.readRet (.ok 1))])
    (P := fun x => decide (x.1.sent = [(240, 1), (240, 2), (240, 3)] ∧ x.2.got = [(240, 1), (240, 3)]) &&
      decide (x.1.c.state = .opn ∧ x.2.c.state = .opn ∧ x.1.c.err = 0 ∧ x.2.c.err = 0)) (by decide +kernel)
  simp only [Bool.and_eq_true, decide_eq_true_eq] at e
  exact ⟨a, b, h, e.1.1, e.1.2, e.2⟩

/-! ## C105: a clean close loses nothing -/

/-- C105 violated: data that was acknowledged is lost when the other end closes.  The first station writes a byte, has it acknowledged, and closes
without an error.  The second, whose user reads only later, has the byte stored when the DISC arrives; it reports the close to the
read callback instead of the byte, and reading is turned off. -/
theorem C105_stored_data_lost_violated :
    ∃ a b, Pair { exConf with extended := 0 } { exConf with extended := 0 } a b ∧ a.sent = [(240, 1)] ∧ b.got = [] ∧
      a.c.state = .reportClose ∧ a.c.err = 0 ∧ a.c.writeLen = 0 ∧ b.c.readLen = 1 ∧ b.c.err = geRemclose ∧ b.c.inChans = false ∧
      b.c.readEnabled = false ∧ b.c.inRead = none := by
  obtain ⟨a, b, h, e⟩ := exPair_any (f := { exConf with extended := 0 }) (n := 0)
    (l := [.own false (.tx .full), .recv true, .own true (.write [[1]] 240), .own true (.tx .full), .recv false, .own false .t2, .own false (.tx .full),
      .recv true, .own true .close, .own true (.tx .full), .recv false, .own false (.tx .full), .recv true, .own false (.readEn true), .own false .deferred])
    (P := fun x => decide (x.1.sent = [(240, 1)] ∧ x.2.got = []) &&
      decide (x.1.c.state = .reportClose ∧ x.1.c.err = 0 ∧ x.1.c.writeLen = 0 ∧ x.2.c.readLen = 1) &&
      decide (x.2.c.err = geRemclose ∧ x.2.c.inChans = false ∧ x.2.c.readEnabled = false ∧ x.2.c.inRead.isNone)) (by decide +kernel)
  simp only [Bool.and_eq_true, decide_eq_true_eq] at e
  exact ⟨a, b, h, e.1.1.1, e.1.1.2, e.1.2.1, e.1.2.2.1, e.1.2.2.2.1, e.1.2.2.2.2, e.2.1, e.2.2.1, e.2.2.2.1, by simpa using e.2.2.2.2⟩

/-- C105 violated, with the default configuration: a close waits for its data to be acknowledged, but the UA for a SABM that was sent twice ends
the wait.  The DISC goes out before the data, and the close finishes without an error. -/
theorem C105_drain_cut_short_violated :
    ∃ a b, Pair { exConf with extended := 0 } { exConf with extended := 0 } a b ∧ a.sent = [(240, 1)] ∧ b.got = [] ∧
      a.c.state = .reportClose ∧ a.c.err = 0 ∧ b.c.readLen = 0 ∧ b.c.inChans = false ∧ b.c.inRead = none := by
  obtain ⟨a, b, h, e⟩ := exPair_any (f := { exConf with extended := 0 }) (n := 1)
    (l := [.own false (.tx .full), .recv true, .recv false, .own true (.write [[1]] 240), .own true .close, .own false (.tx .full), .recv true,
      .own true (.tx .full), .own true (.tx .full), .recv false, .own false (.tx .full), .recv true, .recv false, .own false (.tx .full), .recv true])
    (P := fun x => decide (x.1.sent = [(240, 1)] ∧ x.2.got = []) &&
      decide (x.1.c.state = .reportClose ∧ x.1.c.err = 0 ∧ x.2.c.readLen = 0) &&
      decide (x.2.c.inChans = false ∧ x.2.c.inRead.isNone)) (by decide +kernel)
  simp only [Bool.and_eq_true, decide_eq_true_eq] at e
  exact ⟨a, b, h, e.1.1.1, e.1.1.2, e.1.2.1, e.1.2.2.1, e.1.2.2.2, e.2.1, by simpa using e.2.2⟩

/-- C105, partial: if a station that is up, closing or not, has nothing waiting for an acknowledgement, and the other is up with nothing stored for
reading, then the other has taken all that was written.  Missing: data stored when the DISC arrives (`C105_stored_data_lost_violated`), and a wait
that is cut short (`C105_drain_cut_short_violated`). -/
theorem C105_clean_close_partial {f g : Conf} (hf : confOk f = true) (hg : confOk g = true) (hf2 : 2 ≤ f.writewindow) (hg2 : 2 ≤ g.writewindow)
    (hfm : f.maxWrite < 18446744073709551616) (hgm : g.maxWrite < 18446744073709551616) (hfu : f.ignoreUa = true) (hgu : g.ignoreUa = true)
    {a b : Side} (h : Pair f g a b) (ha : a.c.inChans = true) (hw : a.c.writeLen = 0)
    (hb : b.c.inChans = true) (hr : b.c.readLen = 0) : b.got = a.sent := by
  have := (C104_in_order_once_partial hf hg hf2 hg2 hfm hgm hfu hgu h).2.2 ha hb hw
  simpa [hr] using this

/-- Two stations as in C105: the byte is read, and the first has closed. -/
example : ∃ a b, Pair { exConf with extended := 0 } { exConf with extended := 0 } a b ∧ a.c.inChans = true ∧ a.c.state = .inClose ∧ a.c.writeLen = 0 ∧
    b.c.inChans = true ∧ b.c.readLen = 0 ∧ b.got = [(240, 1)] := by
  obtain ⟨a, b, h, e⟩ := exPair_any (f := { exConf with extended := 0 }) (n := 0)
    (l := [.own false (.tx .full), .recv true, .own true (.write [[1]] 240), .own true (.tx .full), .own false (.readEn true), .recv false,
      .own false (.readRet (.ok 1)), .own false .t2, .own false (.tx .full), .recv true, .own true .close])
    (P := fun x => decide (x.1.c.inChans = true ∧ x.1.c.state = .inClose ∧ x.1.c.writeLen = 0) &&
      decide (x.2.c.inChans = true ∧ x.2.c.readLen = 0 ∧ x.2.got = [(240, 1)])) (by decide +kernel)
  simp only [Bool.and_eq_true, decide_eq_true_eq] at e
  exact ⟨a, b, h, e.1.1, e.1.2.1, e.1.2.2, e.2.1, e.2.2.1, e.2.2.2⟩

end Gensio.Ax25
