import Verif.Model.Ssl
/-!
# Invariants of the TLS filter
-/
namespace Gensio.Ssl

/-- What the notes say about the data, `e` being the error so far. -/
structure Core (f : F) (e : Option Err) : Prop where
  out : e = none → f.toLl ++ f.xbuf.drop f.xpos = f.fromBio
  outP : f.toLl <+: f.fromBio
  usr : e = none → f.taken = f.sent ++ f.wdata
  usrP : f.sent ++ f.wdata <+: f.taken
  rep : e = none → f.repeated = none ∨ f.repeated = some f.wdata ∧ f.wdata ≠ []

/-- OpenSSL is called again with what it was called with. -/
def Rep (f : F) : Prop := f.wdata ≠ [] → f.repeated = none ∨ f.repeated = some f.wdata

/-- The buffers, and what was read. -/
structure Bufs (f : F) : Prop where
  inp : f.given ++ f.rdata = f.got
  wlen : f.wdata.length ≤ f.maxW
  xp : f.xbuf ≠ [] → f.xpos < f.xbuf.length
  xlen : f.xbuf.length ≤ f.maxX
  rlen : f.rpos + f.rdata.length ≤ f.maxR

theorem Bufs.congr {f g : F} (h : Bufs f) (h1 : g.given = f.given) (h2 : g.rdata = f.rdata) (h3 : g.got = f.got) (h4 : g.wdata = f.wdata)
    (h5 : g.maxW = f.maxW) (h6 : g.xbuf = f.xbuf) (h7 : g.xpos = f.xpos) (h8 : g.maxX = f.maxX) (h9 : g.rpos = f.rpos) (h10 : g.maxR = f.maxR) : Bufs g :=
  ⟨by rw [h1, h2, h3]; exact h.inp, by rw [h4, h5]; exact h.wlen, by rw [h6, h7]; exact h.xp, by rw [h6, h8]; exact h.xlen,
    by rw [h9, h2, h10]; exact h.rlen⟩

/-- The sizes are those of the start. -/
def Sizes (f g : F) : Prop := g.maxR = f.maxR ∧ g.maxW = f.maxW ∧ g.maxX = f.maxX ∧ g.timeout = f.timeout

theorem handle_eq (f : F) (r : No) : ∃ a b, (f.handle r).1 = { f with wantR := a, wantW := b } := by
  cases r <;> exact ⟨_, _, rfl⟩

theorem flush_core {f : F} {a : Except Err Nat} (h : Core f none) : Core (f.flush a).1 (f.flush a).2 := by
  unfold F.flush
  split
  · exact h
  · cases a with
    | error e =>
      refine ⟨by simp, h.outP, by simp, ?_, by simp⟩
      obtain ⟨t, ht⟩ := h.usrP
      exact ⟨f.wdata ++ t, by simp only [List.append_nil]; rw [← List.append_assoc]; exact ht⟩
    | ok n =>
      have key : f.toLl ++ (f.xbuf.drop f.xpos).take n ++ (if f.xbuf.length ≤ f.xpos + n then [] else f.xbuf).drop (f.xpos + n) = f.fromBio := by
        rw [← h.out rfl, List.append_assoc]
        congr 1
        by_cases hl : f.xbuf.length ≤ f.xpos + n
        · rw [if_pos hl, List.drop_nil, List.append_nil, List.take_of_length_le]
          simp; omega
        · rw [if_neg hl, ← List.drop_drop]
          exact List.take_append_drop n (f.xbuf.drop f.xpos)
      exact ⟨fun _ => key, ⟨_, key⟩, h.usr, h.usrP, h.rep⟩

theorem flush_bufs {f : F} {a : Except Err Nat} (h : Bufs f) : Bufs (f.flush a).1 := by
  unfold F.flush
  split
  · exact h
  · cases a with
    | error e => exact ⟨h.inp, by simp, by simp, by simp, h.rlen⟩
    | ok n =>
      refine ⟨h.inp, h.wlen, ?_, ?_, h.rlen⟩
      · by_cases hl : f.xbuf.length ≤ f.xpos + n
        · simp [hl]
        · simp only [if_neg hl]; intro _; omega
      · by_cases hl : f.xbuf.length ≤ f.xpos + n
        · simp [hl]
        · simp only [if_neg hl]; exact h.xlen

theorem flush_frame (f : F) (a : Except Err Nat) : (f.flush a).1.masked = f.masked ∧ Sizes f (f.flush a).1 ∧ (f.flush a).1.err = f.err := by
  unfold F.flush
  split
  · exact ⟨rfl, ⟨rfl, rfl, rfl, rfl⟩, rfl⟩
  · cases a <;> exact ⟨rfl, ⟨rfl, rfl, rfl, rfl⟩, rfl⟩

/-- A call of OpenSSL: no fault, and the notes are right unless an error was forgotten. -/
theorem call_rep {f : F} {e : Option Err} {a : Option No} (h : Rep f) : ∃ f' e', f.call e a = some (f', e') ∧ Rep f' := by
  unfold F.call
  split
  · rename_i hc
    obtain ⟨he, hx, hw⟩ := hc
    subst he
    rw [if_neg (by rcases h hw with hr | hr <;> simp [hr])]
    cases a with
    | none => exact ⟨_, _, rfl, fun hw => absurd rfl hw⟩
    | some r =>
      cases r <;> first | exact ⟨_, _, rfl, fun _ => .inr rfl⟩ | exact ⟨_, _, rfl, fun hw => absurd rfl hw⟩
  · rename_i hc
    split
    · cases a with
      | none => exact ⟨_, _, rfl, h⟩
      | some r => cases r <;> first | exact ⟨_, _, rfl, h⟩ | exact ⟨_, _, rfl, fun hw => absurd rfl hw⟩
    · exact ⟨f, e, rfl, h⟩

theorem flush_rep {f : F} {a : Except Err Nat} (h : Rep f) : Rep (f.flush a).1 := by
  unfold F.flush
  split
  · exact h
  · cases a with
    | error e => exact fun hw => absurd rfl hw
    | ok n => exact h

theorem fetch_rep {f : F} {e : Option Err} {a : Bio} (h : Rep f) : Rep (f.fetch e a).1 := by
  unfold F.fetch
  split
  · cases a <;> exact h
  · exact h

theorem pass_rep {f : F} {a : Pass} (h : Rep f) : ∃ f' e b, f.pass a = some (f', e, b) ∧ Rep f' := by
  unfold F.pass
  have h1 := flush_rep (a := a.ll) h
  cases hf : f.flush a.ll with
  | mk g e =>
    rw [hf] at h1
    obtain ⟨g', e', q, c⟩ := call_rep (e := e) (a := a.ssl) h1
    simp only
    rw [q]
    exact ⟨_, _, _, rfl, fetch_rep c⟩

/-- And the notes are right unless an error was forgotten. -/
theorem call_core {f : F} {e : Option Err} {a : Option No} (h : Core f e) :
    ∃ f' e', f.call e a = some (f', e') ∧ (f'.masked = false → f.masked = false ∧ Core f' e') := by
  unfold F.call
  split
  · rename_i hc
    obtain ⟨he, hx, hw⟩ := hc
    subst he
    rw [if_neg (by rcases h.rep rfl with hr | ⟨hr, _⟩ <;> simp [hr])]
    cases a with
    | none =>
      refine ⟨_, _, rfl, fun hm => ⟨hm, ⟨h.out, h.outP, fun _ => ?_, ?_, by simp⟩⟩⟩
      · simp [h.usr rfl]
      · simp only [List.append_nil]; rw [h.usr rfl]; exact List.prefix_refl _
    | some r =>
      cases r with
      | wantRead => exact ⟨_, _, rfl, fun hm => ⟨hm, ⟨h.out, h.outP, h.usr, h.usrP, fun _ => .inr ⟨rfl, hw⟩⟩⟩⟩
      | wantWrite => exact ⟨_, _, rfl, fun hm => ⟨hm, ⟨h.out, h.outP, h.usr, h.usrP, fun _ => .inr ⟨rfl, hw⟩⟩⟩⟩
      | _ =>
        refine ⟨_, _, rfl, fun hm => ⟨hm, ⟨by simp [F.handle], h.outP, by simp [F.handle], ?_, by simp [F.handle]⟩⟩⟩
        obtain ⟨t, ht⟩ := h.usrP
        exact ⟨f.wdata ++ t, show f.sent ++ [] ++ (f.wdata ++ t) = f.taken by simpa using ht⟩
  · split
    · cases a with
      | none => exact ⟨_, _, rfl, fun hm => ⟨hm, ⟨by simp, h.outP, by simp, h.usrP, by simp⟩⟩⟩
      | some r =>
        cases r with
        | wantRead =>
          refine ⟨_, _, rfl, fun hm => ?_⟩
          replace hm : (f.masked || e.isSome) = false := hm
          rw [Bool.or_eq_false_iff] at hm
          cases e with
          | some x => simp at hm
          | none => exact ⟨hm.1, ⟨h.out, h.outP, h.usr, h.usrP, h.rep⟩⟩
        | wantWrite =>
          refine ⟨_, _, rfl, fun hm => ?_⟩
          replace hm : (f.masked || e.isSome) = false := hm
          rw [Bool.or_eq_false_iff] at hm
          cases e with
          | some x => simp at hm
          | none => exact ⟨hm.1, ⟨h.out, h.outP, h.usr, h.usrP, h.rep⟩⟩
        | _ =>
          refine ⟨_, _, rfl, fun hm => ⟨hm, ⟨by simp [F.handle], h.outP, by simp [F.handle], ?_, by simp [F.handle]⟩⟩⟩
          obtain ⟨t, ht⟩ := h.usrP
          exact ⟨f.wdata ++ t, show f.sent ++ [] ++ (f.wdata ++ t) = f.taken by simpa using ht⟩
    · exact ⟨f, e, rfl, fun hm => ⟨hm, h⟩⟩

theorem call_frame {f f' : F} {e e' : Option Err} {a : Option No} (h : f.call e a = some (f', e')) :
    (f.masked = true → f'.masked = true) ∧ Sizes f f' ∧ f'.err = f.err ∧ (Bufs f → Bufs f') := by
  unfold F.call at h
  split at h
  · split at h
    · cases h
    · cases a with
      | none => cases h; exact ⟨id, ⟨rfl, rfl, rfl, rfl⟩, rfl, fun b => ⟨b.inp, by simp, b.xp, b.xlen, b.rlen⟩⟩
      | some r =>
        cases r <;> (cases h; refine ⟨id, ⟨rfl, rfl, rfl, rfl⟩, rfl, fun b => ?_⟩) <;>
          first | exact ⟨b.inp, b.wlen, b.xp, b.xlen, b.rlen⟩ | exact ⟨b.inp, Nat.zero_le _, b.xp, b.xlen, b.rlen⟩
  · split at h
    · cases a with
      | none => cases h; exact ⟨id, ⟨rfl, rfl, rfl, rfl⟩, rfl, fun b => ⟨b.inp, b.wlen, b.xp, b.xlen, b.rlen⟩⟩
      | some r =>
        cases r <;> (cases h; refine ⟨fun hm => by simp [F.handle, hm], ⟨rfl, rfl, rfl, rfl⟩, rfl, fun b => ?_⟩) <;>
          first | exact ⟨b.inp, b.wlen, b.xp, b.xlen, b.rlen⟩ | exact ⟨b.inp, Nat.zero_le _, b.xp, b.xlen, b.rlen⟩
    · cases h; exact ⟨id, ⟨rfl, rfl, rfl, rfl⟩, rfl, id⟩

theorem fetch_core {f : F} {e : Option Err} {a : Bio} (h : Core f e) : Core (f.fetch e a).1 (f.fetch e a).2.1 := by
  unfold F.fetch
  split
  · rename_i hc
    obtain ⟨he, hx⟩ := hc
    subst he
    cases a with
    | later => exact h
    | fail => exact ⟨by simp, h.outP, by simp, h.usrP, by simp⟩
    | data d =>
      have := h.out rfl
      rw [hx, List.drop_nil, List.append_nil] at this
      refine ⟨fun _ => ?_, ?_, h.usr, h.usrP, h.rep⟩
      · simp [this]
      · rw [← this]; exact List.prefix_append _ _
  · exact h

theorem fetch_frame (f : F) (e : Option Err) (a : Bio) :
    (f.fetch e a).1.masked = f.masked ∧ Sizes f (f.fetch e a).1 ∧ (f.fetch e a).1.err = f.err ∧
    ((∀ d, a = .data d → d.length ≤ f.maxX) → Bufs f → Bufs (f.fetch e a).1) := by
  unfold F.fetch
  split
  · cases a with
    | later => exact ⟨rfl, ⟨rfl, rfl, rfl, rfl⟩, rfl, fun _ => id⟩
    | fail => exact ⟨rfl, ⟨rfl, rfl, rfl, rfl⟩, rfl, fun _ => id⟩
    | data d =>
      exact ⟨rfl, ⟨rfl, rfl, rfl, rfl⟩, rfl, fun hd b => ⟨b.inp, b.wlen, fun h => List.length_pos_iff.2 h, hd d rfl, b.rlen⟩⟩
  · exact ⟨rfl, ⟨rfl, rfl, rfl, rfl⟩, rfl, fun _ => id⟩

theorem Sizes.trans {f g h : F} (a : Sizes f g) (b : Sizes g h) : Sizes f h :=
  ⟨b.1.trans a.1, b.2.1.trans a.2.1, b.2.2.1.trans a.2.2.1, b.2.2.2.trans a.2.2.2⟩

theorem pass_core {f : F} {a : Pass} (h : Core f none) :
    ∃ f' e b, f.pass a = some (f', e, b) ∧ (f'.masked = false → f.masked = false ∧ Core f' e) := by
  unfold F.pass
  have h1 := flush_core (a := a.ll) h
  have fr := flush_frame f a.ll
  cases hf : f.flush a.ll with
  | mk g e =>
    rw [hf] at h1 fr
    simp only at h1 fr ⊢
    obtain ⟨g', e', q, c⟩ := call_core (a := a.ssl) h1
    rw [q]
    refine ⟨_, _, _, rfl, fun hm => ?_⟩
    replace hm : (g'.fetch e' a.bio).1.masked = false := hm
    rw [(fetch_frame g' e' a.bio).1] at hm
    obtain ⟨m1, c1⟩ := c hm
    exact ⟨by rw [fr.1] at m1; exact m1, fetch_core c1⟩

theorem pass_frame {f f' : F} {a : Pass} {e : Option Err} {b : Bool} (h : f.pass a = some (f', e, b)) :
    (f.masked = true → f'.masked = true) ∧ Sizes f f' ∧ f'.err = f.err ∧ (b = true → e = none) ∧
    ((∀ d, a.bio = .data d → d.length ≤ f.maxX) → Bufs f → Bufs f') := by
  unfold F.pass at h
  have fr := flush_frame f a.ll
  have fb := flush_bufs (f := f) (a := a.ll)
  cases hf : f.flush a.ll with
  | mk g x =>
    rw [hf] at h fr fb
    simp only at h fr fb
    obtain ⟨⟨g', x'⟩, hc, h⟩ := Option.map_eq_some_iff.1 h
    have cf := call_frame hc
    have ff := fetch_frame g' x' a.bio
    simp only at h
    rw [h] at ff
    simp only at ff
    refine ⟨fun hm => by rw [ff.1]; exact cf.1 (by rw [fr.1]; exact hm), (fr.2.1.trans cf.2.1).trans ff.2.1, by rw [ff.2.2.1, cf.2.2.1, fr.2.2], ?_, ?_⟩
    · intro hb
      subst hb
      unfold F.fetch at h
      split at h
      · cases hab : a.bio <;> rw [hab] at h <;> cases h
        rfl
      · cases h
    · intro hd hB
      refine ff.2.2.2 (fun d hda => ?_) (cf.2.2.2 (fb hB))
      rw [cf.2.1.2.2.1, fr.2.1.2.2.1]
      exact hd d hda

theorem loop_ok (l : List Pass) : ∀ {f : F}, Rep f → f.complete l = true → ∃ f' e, f.loop l = some (f', e) := by
  induction l with
  | nil => intro f _ h; cases h
  | cons a l ih =>
    intro f h hc
    obtain ⟨g, e, b, q, c⟩ := pass_rep (a := a) h
    unfold F.complete at hc
    rw [q] at hc
    unfold F.loop
    rw [q]
    simp only [Option.bind_some] at hc ⊢
    cases b with
    | false => simp only [Bool.false_eq_true, if_false] at hc ⊢; rw [if_pos hc]; exact ⟨g, e, rfl⟩
    | true => simp only [if_true] at hc ⊢; exact ih c hc

theorem loop_spec (l : List Pass) : ∀ {f f' : F} {e : Option Err}, f.loop l = some (f', e) →
    (f'.masked = false → f.masked = false) ∧ (f'.masked = false → Core f none → Core f' e) ∧ Sizes f f' ∧ f'.err = f.err ∧
    ((∀ a ∈ l, ∀ d, a.bio = .data d → d.length ≤ f.maxX) → Bufs f → Bufs f') := by
  induction l with
  | nil => intro f f' e h; cases h
  | cons a l ih =>
    intro f f' e h
    unfold F.loop at h
    obtain ⟨⟨g, x, b⟩, q, h⟩ := Option.bind_eq_some_iff.1 h
    have pf := pass_frame q
    have pc : Core f none → (g.masked = false → f.masked = false ∧ Core g x) := by
      intro hc
      obtain ⟨g1, x1, b1, q1, c1⟩ := pass_core (a := a) hc
      rw [q] at q1; cases q1
      exact c1
    have back : g.masked = false → f.masked = false := by
      intro hm
      cases hf : f.masked with
      | false => rfl
      | true => rw [pf.1 hf] at hm; cases hm
    cases b with
    | false =>
      simp only [Bool.false_eq_true, if_false] at h
      split at h
      · cases h
        exact ⟨back, fun hm hc => (pc hc hm).2, pf.2.1, pf.2.2.1, fun hd hB => pf.2.2.2.2 (fun d hda => hd a (by simp) d hda) hB⟩
      · cases h
    | true =>
      simp only [if_true] at h
      obtain ⟨i1, i2, i3, i4, i5⟩ := ih h
      refine ⟨fun hm => back (i1 hm), fun hm hc => i2 hm ?_, pf.2.1.trans i3, by rw [i4, pf.2.2.1], fun hd hB => i5 (fun a' ha d hda => ?_) ?_⟩
      · have := (pc hc (i1 hm)).2
        rw [pf.2.2.2.1 rfl] at this
        exact this
      · rw [pf.2.1.2.2.1]; exact hd a' (by simp [ha]) d hda
      · exact pf.2.2.2.2 (fun d hda => hd a (by simp) d hda) hB

/-! ## Taking the data of the user -/

theorem fold_take (m : Nat) (sg : List (List UInt8)) : ∀ (w : List UInt8), w.length ≤ m →
    sg.foldl (fun w b => w ++ b.take (Nat.min b.length (m - w.length))) w = (w ++ sg.flatten).take m := by
  induction sg with
  | nil => intro w hw; simp [List.take_of_length_le hw]
  | cons b sg ih =>
    intro w hw
    have e1 : b.take (Nat.min b.length (m - w.length)) = b.take (m - w.length) := by
      simp only [Nat.min_def]
      split
      · rename_i hle
        rw [List.take_of_length_le hle, List.take_of_length_le (Nat.le_refl _)]
      · rfl
    rw [List.foldl_cons, e1, ih _ (by simp; omega)]
    simp only [List.flatten_cons, ← List.append_assoc]
    have e2 : w ++ b.take (m - w.length) = (w ++ b).take m := by
      rw [List.take_append, List.take_of_length_le hw]
    rw [e2, List.take_append, List.take_append (l₁ := w ++ b), List.take_take, Nat.min_self]
    congr 1
    by_cases hb : (w ++ b).length ≤ m
    · rw [List.take_of_length_le hb]
    · have h1 : m - ((w ++ b).take m).length = 0 := by rw [List.length_take]; omega
      have h2 : m - (w ++ b).length = 0 := by omega
      rw [h1, h2]

/-- What is taken and what is reported. -/
theorem accept_spec (f : F) (sg : List (List UInt8)) :
    ∃ f' n, f.accept sg = some (f', n) ∧
      (f.connected = false → f' = f ∧ n = sg.flatten.length) ∧
      (f.connected = true → f.wdata ≠ [] → f' = f ∧ n = 0) ∧
      (f.connected = true → f.wdata = [] →
        f' = { f with wdata := sg.flatten.take f.maxW, taken := f.taken ++ sg.flatten.take f.maxW } ∧ n = (sg.flatten.take f.maxW).length) := by
  unfold F.accept
  cases hc : f.connected with
  | false => exact ⟨f, _, rfl, fun _ => ⟨rfl, by rw [List.length_flatten]⟩, by simp, by simp⟩
  | true =>
    simp only [Bool.not_true, Bool.false_eq_true, if_false]
    by_cases hw : f.wdata = []
    · rw [if_neg (by simp [hw])]
      rw [fold_take f.maxW sg [] (Nat.zero_le _), List.nil_append]
      rw [if_neg (by simp; omega)]
      exact ⟨_, _, rfl, by simp, fun _ h => absurd hw h, fun _ _ => ⟨rfl, rfl⟩⟩
    · rw [if_pos hw]
      exact ⟨f, 0, rfl, by simp, fun _ _ => ⟨rfl, rfl⟩, fun _ h => absurd h hw⟩

/-! ## All calls -/

/-- What OpenSSL, the BIO and the caller promise. -/
def Fair (f : F) : Op → Prop
  | .ul sg l => (∀ a ∈ l, ∀ d, a.bio = .data d → d.length ≤ f.maxX) ∧ (f.err = none → ∀ g n, f.accept sg = some (g, n) → g.complete l = true)
  | .ll _ _ a => f.inUl = false ∧ ∀ d, a = .data d → d.length ≤ f.maxR
  | .ulDone _ a => f.inUl = true ∧ ∀ d, a = .data d → d.length ≤ f.maxR
  | _ => True

/-- The invariant of all calls. -/
structure Good (f : F) : Prop where
  bufs : Bufs f
  core : f.masked = false → Core f f.err

theorem accept_good {f g : F} {sg : List (List UInt8)} {n : Nat} (h : Good f) (he : f.err = none) (q : f.accept sg = some (g, n)) :
    Bufs g ∧ (g.masked = false → Core g none ∧ Rep g) ∧ Sizes f g ∧ g.err = none ∧ g.masked = f.masked := by
  obtain ⟨g', n', q', a1, a2, a3⟩ := accept_spec f sg
  rw [q] at q'; cases q'
  have same : g = f → Bufs g ∧ (g.masked = false → Core g none ∧ Rep g) ∧ Sizes f g ∧ g.err = none ∧ g.masked = f.masked := by
    intro e
    rw [e]
    refine ⟨h.bufs, fun hm => ?_, ⟨rfl, rfl, rfl, rfl⟩, he, rfl⟩
    have c := h.core hm
    rw [he] at c
    exact ⟨c, fun _ => (c.rep rfl).imp id (·.1)⟩
  cases hc : f.connected with
  | false => exact same (a1 hc).1
  | true =>
    by_cases hw : f.wdata = []
    · have e := (a3 hc hw).1
      rw [e]
      refine ⟨⟨h.bufs.inp, by simp only [List.length_take]; omega, h.bufs.xp, h.bufs.xlen, h.bufs.rlen⟩, fun hm => ?_, ⟨rfl, rfl, rfl, rfl⟩, he, rfl⟩
      have c := h.core hm
      rw [he] at c
      have hr : f.repeated = none := by
        rcases c.rep rfl with hr | ⟨_, hr⟩
        · exact hr
        · exact absurd hw hr
      have ht : f.taken = f.sent := by have := c.usr rfl; rwa [hw, List.append_nil] at this
      refine ⟨⟨c.out, c.outP, fun _ => by simp only [ht], ?_, fun _ => .inl hr⟩, fun _ => .inl hr⟩
      simp only [ht]; exact List.prefix_refl _
    · exact same (a2 hc hw).1

theorem llEnd_eq {f : F} {e : Option Err} {n : Nat} (h : f.err = none) : f.llEnd e n = ({ f with err := e }, { err := e, count := n }) := by
  unfold F.llEnd
  rw [if_pos h]

theorem more_good {f : F} {e : Option Err} {a : Rd} {n : Nat} (h : Good f) (he : f.err = none) (hi : f.inUl = false)
    (ha : ∀ d, a = .data d → d.length ≤ f.maxR) : ∃ f' r, f.more e a n = some (f', r) ∧ Good f' ∧ Sizes f f' := by
  have core' : ∀ (g : F) (x : Option Err), g.toLl = f.toLl → g.xbuf = f.xbuf → g.xpos = f.xpos → g.fromBio = f.fromBio → g.taken = f.taken →
      g.sent = f.sent → g.wdata = f.wdata → g.repeated = f.repeated → g.masked = f.masked → (g.masked = false → Core g x) := by
    intro g x e1 e2 e3 e4 e5 e6 e7 e8 e9 hm
    have c := h.core (e9 ▸ hm)
    rw [he] at c
    exact ⟨fun _ => by rw [e1, e2, e3, e4]; exact c.out rfl, by rw [e1, e4]; exact c.outP, fun _ => by rw [e5, e6, e7]; exact c.usr rfl,
      by rw [e5, e6, e7]; exact c.usrP, fun _ => by rw [e8, e7]; exact c.rep rfl⟩
  unfold F.more
  by_cases hr : f.rdata = []
  · simp only [hr, if_true]
    have hin : f.given = f.got := by have := h.bufs.inp; rwa [hr, List.append_nil] at this
    cases a with
    | data d =>
      simp only
      by_cases hc : e = none ∧ d ≠ []
      · rw [if_pos hc, if_neg (by simp [hi])]
        exact ⟨_, _, rfl, ⟨⟨by simp [hin], h.bufs.wlen, h.bufs.xp, h.bufs.xlen, by simpa using ha d rfl⟩, core' _ _ rfl rfl rfl rfl rfl rfl rfl rfl rfl⟩, ⟨rfl, rfl, rfl, rfl⟩⟩
      · rw [if_neg hc]
        rw [llEnd_eq (by exact he)]
        exact ⟨_, _, rfl, ⟨⟨by simp [hin], h.bufs.wlen, h.bufs.xp, h.bufs.xlen, by simpa using ha d rfl⟩, core' _ _ rfl rfl rfl rfl rfl rfl rfl rfl rfl⟩, ⟨rfl, rfl, rfl, rfl⟩⟩
    | no r =>
      have fin : ∀ (x : Option Err) (p q : Bool),
          Good { f with wantR := p, wantW := q, rdata := [], rpos := 0, err := x } := fun x p q =>
        ⟨⟨by simp [hin], h.bufs.wlen, h.bufs.xp, h.bufs.xlen, by simp⟩, core' _ _ rfl rfl rfl rfl rfl rfl rfl rfl rfl⟩
      simp only
      cases e with
      | some x =>
        simp only [reduceCtorEq, if_false, false_and]
        rw [llEnd_eq (by exact he)]
        exact ⟨_, _, rfl, fin _ _ _, ⟨rfl, rfl, rfl, rfl⟩⟩
      | none =>
        simp only [if_true]
        cases r <;> simp only [F.handle, hr, ne_eq, not_true_eq_false, and_false, if_false] <;> rw [llEnd_eq (by exact he)] <;>
          exact ⟨_, _, rfl, fin _ _ _, ⟨rfl, rfl, rfl, rfl⟩⟩
  · simp only [hr, if_false]
    by_cases hc : e = none ∧ f.rdata ≠ []
    · rw [if_pos hc, if_neg (by simp [hi])]
      exact ⟨_, _, rfl, ⟨⟨h.bufs.inp, h.bufs.wlen, h.bufs.xp, h.bufs.xlen, h.bufs.rlen⟩, core' _ _ rfl rfl rfl rfl rfl rfl rfl rfl rfl⟩, ⟨rfl, rfl, rfl, rfl⟩⟩
    · rw [if_neg hc]
      rw [llEnd_eq (by exact he)]
      exact ⟨_, _, rfl, ⟨⟨h.bufs.inp, h.bufs.wlen, h.bufs.xp, h.bufs.xlen, h.bufs.rlen⟩, core' _ _ rfl rfl rfl rfl rfl rfl rfl rfl rfl⟩, ⟨rfl, rfl, rfl, rfl⟩⟩

/-- Every call keeps the invariant. -/
theorem step_good {f f' : F} {o : Op} {r : Ret} (h : Good f) (hf : Fair f o) (q : step f o = some (f', r)) : Good f' ∧ Sizes f f' := by
  have chg : ∀ (g : F), g.toLl = f.toLl → g.xbuf = f.xbuf → g.xpos = f.xpos → g.fromBio = f.fromBio → g.taken = f.taken →
      g.sent = f.sent → g.wdata = f.wdata → g.repeated = f.repeated → g.masked = f.masked → (g.err = none → f.err = none) → (g.masked = false → Core g g.err) := by
    intro g e1 e2 e3 e4 e5 e6 e7 e8 e9 e10 hm
    have c := h.core (e9 ▸ hm)
    exact ⟨fun x => by rw [e1, e2, e3, e4]; exact c.out (e10 x), by rw [e1, e4]; exact c.outP, fun x => by rw [e5, e6, e7]; exact c.usr (e10 x),
      by rw [e5, e6, e7]; exact c.usrP, fun x => by rw [e8, e7]; exact c.rep (e10 x)⟩
  cases o with
  | ul sg l =>
    simp only [step, F.ulWrite] at q
    cases he : f.err with
    | some e => rw [he] at q; cases q; exact ⟨h, ⟨rfl, rfl, rfl, rfl⟩⟩
    | none =>
      rw [he] at q
      simp only at q
      obtain ⟨⟨g, n⟩, qa, q⟩ := Option.bind_eq_some_iff.1 q
      obtain ⟨⟨g', e⟩, ql, q⟩ := Option.map_eq_some_iff.1 q
      cases q
      obtain ⟨b, c, sz, ge, gm⟩ := accept_good h he qa
      obtain ⟨l1, l2, l3, l4, l5⟩ := loop_spec l ql
      have sz' := sz.trans l3
      refine ⟨⟨?_, fun hm => ?_⟩, sz'⟩
      · exact (l5 (fun a ha d hd => by rw [sz.2.2.1]; exact hf.1 a ha d hd) b).congr rfl rfl rfl rfl rfl rfl rfl rfl rfl rfl
      · have hm' : g'.masked = false := hm
        have cc := l2 hm' (c (l1 hm')).1
        exact ⟨cc.out, cc.outP, cc.usr, cc.usrP, cc.rep⟩
  | ll buf b a =>
    obtain ⟨hi, ha⟩ := hf
    simp only [step, F.llWrite] at q
    cases he : f.err with
    | some e => rw [he] at q; cases q; exact ⟨h, ⟨rfl, rfl, rfl, rfl⟩⟩
    | none =>
      rw [he] at q
      simp only at q
      have fin : ∀ (x : Option Err) (n : Nat), f.more x a n = some (f', r) → Good f' ∧ Sizes f f' := by
        intro x n q
        obtain ⟨f1, r1, q1, g1, s1⟩ := more_good (e := x) (a := a) (n := n) h he hi ha
        rw [q] at q1; cases q1
        exact ⟨g1, s1⟩
      split at q
      · exact fin _ _ q
      · cases b <;> exact fin _ _ q
  | ulDone r a =>
    obtain ⟨hi, ha⟩ := hf
    simp only [step, F.ulDone] at q
    cases r with
    | error e =>
      simp only [F.llEnd] at q
      cases he : f.err with
      | some x => simp only [he, reduceCtorEq, if_false] at q; cases q; exact ⟨⟨h.bufs.congr rfl rfl rfl rfl rfl rfl rfl rfl rfl rfl, chg _ rfl rfl rfl rfl rfl rfl rfl rfl rfl (by simp)⟩, ⟨rfl, rfl, rfl, rfl⟩⟩
      | none => simp only [he, if_true] at q; cases q; exact ⟨⟨h.bufs.congr rfl rfl rfl rfl rfl rfl rfl rfl rfl rfl, chg _ rfl rfl rfl rfl rfl rfl rfl rfl rfl (by simp)⟩, ⟨rfl, rfl, rfl, rfl⟩⟩
    | ok n =>
      simp only at q
      split at q
      · have b1 : Bufs { f with inUl := false, given := f.given ++ f.rdata, rdata := [], rpos := 0 } :=
          ⟨by simpa using h.bufs.inp, h.bufs.wlen, h.bufs.xp, h.bufs.xlen, by simp⟩
        have g1 : Good { f with inUl := false, given := f.given ++ f.rdata, rdata := [], rpos := 0 } :=
          ⟨b1, chg _ rfl rfl rfl rfl rfl rfl rfl rfl rfl id⟩
        split at q
        · rename_i hc
          obtain ⟨f1, r1, q1, g2, s1⟩ := more_good (e := none) (a := a) (n := 0) g1 hc.1 rfl ha
          rw [q] at q1; cases q1
          exact ⟨g2, s1⟩
        · simp only [F.llEnd] at q
          cases he : f.err with
          | some x => simp only [he, reduceCtorEq, if_false] at q; cases q; exact ⟨⟨b1.congr rfl rfl rfl rfl rfl rfl rfl rfl rfl rfl, chg _ rfl rfl rfl rfl rfl rfl rfl rfl rfl (by simp)⟩, ⟨rfl, rfl, rfl, rfl⟩⟩
          | none => simp only [he, if_true] at q; cases q; exact ⟨⟨b1.congr rfl rfl rfl rfl rfl rfl rfl rfl rfl rfl, chg _ rfl rfl rfl rfl rfl rfl rfl rfl rfl (fun _ => he)⟩, ⟨rfl, rfl, rfl, rfl⟩⟩
      · rename_i hlen
        have b1 : Bufs { f with inUl := false, given := f.given ++ f.rdata.take n, rdata := f.rdata.drop n, rpos := f.rpos + n } :=
          ⟨by simpa [List.append_assoc] using h.bufs.inp, h.bufs.wlen, h.bufs.xp, h.bufs.xlen, by
            have := h.bufs.rlen
            simp only [List.length_drop]; omega⟩
        simp only [F.llEnd] at q
        cases he : f.err with
        | some x => simp only [he, reduceCtorEq, if_false] at q; cases q; exact ⟨⟨b1.congr rfl rfl rfl rfl rfl rfl rfl rfl rfl rfl, chg _ rfl rfl rfl rfl rfl rfl rfl rfl rfl (by simp)⟩, ⟨rfl, rfl, rfl, rfl⟩⟩
        | none => simp only [he, if_true] at q; cases q; exact ⟨⟨b1.congr rfl rfl rfl rfl rfl rfl rfl rfl rfl rfl, chg _ rfl rfl rfl rfl rfl rfl rfl rfl rfl (fun _ => he)⟩, ⟨rfl, rfl, rfl, rfl⟩⟩
  | connect now t a =>
    simp only [step, Option.some.injEq] at q
    have e : ∃ s c w1 w2 k, f' = { f with started := s, contime := c, wantR := w1, wantW := w2, connected := k } := by
      have := congrArg Prod.fst q
      simp only at this
      rw [← this]
      unfold F.connect
      cases hs : f.started <;> cases t <;> (cases a with
        | none => exact ⟨_, _, _, _, _, rfl⟩
        | some r => cases r <;> exact ⟨_, _, _, _, _, rfl⟩)
    obtain ⟨s, c, w1, w2, k, e⟩ := e
    rw [e]
    exact ⟨⟨h.bufs.congr rfl rfl rfl rfl rfl rfl rfl rfl rfl rfl, chg _ rfl rfl rfl rfl rfl rfl rfl rfl rfl id⟩, ⟨rfl, rfl, rfl, rfl⟩⟩
  | disconnect both a =>
    simp only [step, Option.some.injEq] at q
    have e : ∃ s w1 w2 x, f' = { f with connected := false, shutOk := s, wantR := w1, wantW := w2, err := x } ∧ (x = none → f.err = none) := by
      have := congrArg Prod.fst q
      simp only at this
      rw [← this]
      unfold F.disconnect
      cases both with
      | true => exact ⟨_, _, _, _, rfl, by simp⟩
      | false =>
        cases hs : f.shutOk with
        | true =>
          simp only [hs, Bool.not_true, Bool.false_eq_true, if_false]
          exact ⟨_, _, _, _, rfl, id⟩
        | false =>
          simp only [hs, Bool.not_false, Bool.false_eq_true, if_false, if_true]
          cases a with
          | done => exact ⟨_, _, _, _, rfl, by simp⟩
          | sent => exact ⟨_, _, _, _, rfl, id⟩
          | no r => cases r <;> exact ⟨_, _, _, _, rfl, id⟩
    obtain ⟨s, w1, w2, x, e, hx⟩ := e
    rw [e]
    exact ⟨⟨h.bufs.congr rfl rfl rfl rfl rfl rfl rfl rfl rfl rfl, chg _ rfl rfl rfl rfl rfl rfl rfl rfl rfl hx⟩, ⟨rfl, rfl, rfl, rfl⟩⟩
  | cleanup =>
    simp only [step] at q
    cases q
    exact ⟨⟨⟨rfl, Nat.zero_le _, by simp [F.cleanup], Nat.zero_le _, Nat.zero_le _⟩, fun _ => ⟨fun _ => rfl, List.prefix_refl _, fun _ => rfl, List.prefix_refl _, fun _ => .inl rfl⟩⟩, ⟨rfl, rfl, rfl, rfl⟩⟩

/-- A fault needs a forgotten error before. -/
theorem step_fault {f : F} {o : Op} (h : Good f) (hf : Fair f o) (q : step f o = none) : f.masked = true := by
  cases o with
  | ul sg l =>
    simp only [step, F.ulWrite] at q
    cases he : f.err with
    | some e => rw [he] at q; cases q
    | none =>
      rw [he] at q
      simp only at q
      obtain ⟨g, n, qa, _⟩ := accept_spec f sg
      obtain ⟨b, c, sz, ge, gm⟩ := accept_good h he qa
      rw [qa] at q
      simp only [Option.bind_some, Option.map_eq_none_iff] at q
      cases hm : f.masked with
      | true => rfl
      | false =>
        obtain ⟨g', e, ql⟩ := loop_ok l (c (gm.trans hm)).2 (hf.2 he g n qa)
        rw [q] at ql; cases ql
  | ll buf b a =>
    obtain ⟨hi, ha⟩ := hf
    simp only [step, F.llWrite] at q
    cases he : f.err with
    | some e => rw [he] at q; cases q
    | none =>
      rw [he] at q
      simp only at q
      have fin : ∀ (x : Option Err) (n : Nat), f.more x a n = none → f.masked = true := by
        intro x n q
        obtain ⟨f1, r1, q1, _⟩ := more_good (e := x) (a := a) (n := n) h he hi ha
        rw [q] at q1; cases q1
      split at q
      · exact fin _ _ q
      · cases b <;> exact fin _ _ q
  | ulDone r a =>
    obtain ⟨hi, ha⟩ := hf
    simp only [step, F.ulDone] at q
    cases r with
    | error e => cases q
    | ok n =>
      simp only at q
      split at q
      · split at q
        · rename_i hc
          have g1 : Good { f with inUl := false, given := f.given ++ f.rdata, rdata := [], rpos := 0 } :=
            ⟨⟨by simpa using h.bufs.inp, h.bufs.wlen, h.bufs.xp, h.bufs.xlen, by simp⟩, fun hm => h.core hm |> fun c => ⟨c.out, c.outP, c.usr, c.usrP, c.rep⟩⟩
          obtain ⟨f1, r1, q1, g2, s1⟩ := more_good (e := none) (a := a) (n := 0) g1 hc.1 rfl ha
          rw [q] at q1; cases q1
        · cases q
      · cases q
  | connect now t a => cases q
  | disconnect both a => cases q
  | cleanup => cases q

theorem init_good (r w : Nat) (t : Int) : Good (init r w t) :=
  ⟨⟨rfl, Nat.zero_le _, by simp [init], Nat.zero_le _, Nat.zero_le _⟩,
    fun _ => ⟨fun _ => rfl, List.prefix_refl _, fun _ => rfl, List.prefix_refl _, fun _ => .inl rfl⟩⟩

/-- The states that calls lead to. -/
inductive Reach (r w : Nat) (t : Int) : F → Prop
  | start : Reach r w t (init r w t)
  | step {f f' : F} {o : Op} {x : Ret} : Reach r w t f → Fair f o → step f o = some (f', x) → Reach r w t f'

theorem Reach.good {r w : Nat} {t : Int} {f : F} (h : Reach r w t f) : Good f ∧ Sizes (init r w t) f := by
  induction h with
  | start => exact ⟨init_good r w t, ⟨rfl, rfl, rfl, rfl⟩⟩
  | step _ hf q ih =>
    obtain ⟨g, s⟩ := step_good ih.1 hf q
    exact ⟨g, ih.2.trans s⟩

/-! ## What one call of `ssl_ul_write` does -/

theorem call_taken {f f' : F} {e e' : Option Err} {a : Option No} (q : f.call e a = some (f', e')) : f'.taken = f.taken ∧ f'.got = f.got ∧ f'.given = f.given := by
  unfold F.call at q
  split at q
  · split at q
    · cases q
    · cases a with
      | none => cases q; exact ⟨rfl, rfl, rfl⟩
      | some r => cases r <;> cases q <;> exact ⟨rfl, rfl, rfl⟩
  · split at q
    · cases a with
      | none => cases q; exact ⟨rfl, rfl, rfl⟩
      | some r => cases r <;> cases q <;> exact ⟨rfl, rfl, rfl⟩
    · cases q; exact ⟨rfl, rfl, rfl⟩

theorem flush_taken (f : F) (a : Except Err Nat) : (f.flush a).1.taken = f.taken ∧ (f.flush a).1.got = f.got ∧ (f.flush a).1.given = f.given := by
  unfold F.flush
  split
  · exact ⟨rfl, rfl, rfl⟩
  · cases a <;> exact ⟨rfl, rfl, rfl⟩

theorem fetch_taken (f : F) (e : Option Err) (a : Bio) : (f.fetch e a).1.taken = f.taken ∧ (f.fetch e a).1.got = f.got ∧ (f.fetch e a).1.given = f.given := by
  unfold F.fetch
  split
  · cases a <;> exact ⟨rfl, rfl, rfl⟩
  · exact ⟨rfl, rfl, rfl⟩

theorem pass_split {f f' : F} {a : Pass} {e : Option Err} {b : Bool} (q : f.pass a = some (f', e, b)) :
    ∃ g g' x, f.flush a.ll = (g, x) ∧ ∃ x', g.call x a.ssl = some (g', x') ∧ g'.fetch x' a.bio = (f', e, b) := by
  unfold F.pass at q
  cases hf : f.flush a.ll with
  | mk g x =>
    rw [hf] at q
    simp only at q
    obtain ⟨⟨g', x'⟩, qc, q⟩ := Option.map_eq_some_iff.1 q
    exact ⟨g, g', x, rfl, x', qc, q⟩

theorem pass_taken {f f' : F} {a : Pass} {e : Option Err} {b : Bool} (q : f.pass a = some (f', e, b)) : f'.taken = f.taken ∧ f'.got = f.got ∧ f'.given = f.given := by
  obtain ⟨g, g', x, h1, x', h2, h3⟩ := pass_split q
  have t1 := flush_taken f a.ll
  have t2 := call_taken h2
  have t3 := fetch_taken g' x' a.bio
  rw [h1] at t1; rw [h3] at t3
  exact ⟨t3.1.trans (t2.1.trans t1.1), t3.2.1.trans (t2.2.1.trans t1.2.1), t3.2.2.trans (t2.2.2.trans t1.2.2)⟩

theorem loop_taken (l : List Pass) : ∀ {f f' : F} {e : Option Err}, f.loop l = some (f', e) → f'.taken = f.taken ∧ f'.got = f.got ∧ f'.given = f.given := by
  induction l with
  | nil => intro f f' e h; cases h
  | cons a l ih =>
    intro f f' e h
    unfold F.loop at h
    obtain ⟨⟨g, x, b⟩, q, h⟩ := Option.bind_eq_some_iff.1 h
    have t := pass_taken q
    cases b with
    | false =>
      simp only [Bool.false_eq_true, if_false] at h
      split at h
      · cases h; exact t
      · cases h
    | true =>
      simp only [if_true] at h
      have t' := ih h
      exact ⟨t'.1.trans t.1, t'.2.1.trans t.2.1, t'.2.2.trans t.2.2⟩

/-- Why a pass can end with an error. -/
def Cause (a : Pass) (e : Err) : Prop :=
  a.ll = .error e ∨ a.ssl = some .proto ∧ e = .proto ∨ a.ssl = some .closed ∧ e = .remclose ∨ a.ssl = some .other ∧ e = .comm ∨ a.bio = .fail ∧ e = .comm

theorem call_cause {f f' : F} {e e' : Option Err} {a : Option No} (q : f.call e a = some (f', e')) :
    (f.peeked = true → f'.peeked = true) ∧
    ∀ x, e' = some x → e = some x ∨ (a = some .proto ∧ x = .proto ∨ a = some .closed ∧ x = .remclose ∨ a = some .other ∧ x = .comm) ∨ f'.peeked = true := by
  unfold F.call at q
  split at q
  · split at q
    · cases q
    · cases a with
      | none => cases q; exact ⟨id, by simp⟩
      | some r => cases r <;> cases q <;> exact ⟨id, by simp⟩
  · split at q
    · cases a with
      | none => cases q; exact ⟨fun _ => rfl, by simp⟩
      | some r => cases r <;> cases q <;> exact ⟨id, by simp⟩
    · cases q; exact ⟨id, fun _ h => .inl h⟩

theorem pass_cause {f f' : F} {a : Pass} {e : Option Err} {b : Bool} (q : f.pass a = some (f', e, b)) :
    (f.peeked = true → f'.peeked = true) ∧ ∀ x, e = some x → Cause a x ∨ f'.peeked = true := by
  obtain ⟨g, g', x, h1, x', h2, h3⟩ := pass_split q
  obtain ⟨p2, c2⟩ := call_cause h2
  have p1 : g.peeked = f.peeked ∧ ∀ y, x = some y → a.ll = .error y := by
    unfold F.flush at h1
    split at h1
    · cases h1; exact ⟨rfl, by simp⟩
    · cases hl : a.ll with
      | error y => rw [hl] at h1; cases h1; exact ⟨rfl, by simp⟩
      | ok n => rw [hl] at h1; cases h1; exact ⟨rfl, by simp⟩
  have p3 : f'.peeked = g'.peeked ∧ ∀ y, e = some y → x' = some y ∨ a.bio = .fail ∧ y = .comm := by
    unfold F.fetch at h3
    split at h3
    · cases hl : a.bio with
      | data d => rw [hl] at h3; cases h3; exact ⟨rfl, by simp⟩
      | later => rw [hl] at h3; cases h3; exact ⟨rfl, by simp⟩
      | fail => rw [hl] at h3; cases h3; exact ⟨rfl, by simp⟩
    · cases h3; exact ⟨rfl, fun _ h => .inl h⟩
  refine ⟨fun h => by rw [p3.1]; exact p2 (by rw [p1.1]; exact h), fun y hy => ?_⟩
  rcases p3.2 y hy with h | h
  · rcases c2 y h with h | h | h
    · exact .inl (.inl (p1.2 y h))
    · unfold Cause
      rcases h with h | h | h
      · exact .inl (.inr (.inl h))
      · exact .inl (.inr (.inr (.inl h)))
      · exact .inl (.inr (.inr (.inr (.inl h))))
    · exact .inr (by rw [p3.1]; exact h)
  · exact .inl (.inr (.inr (.inr (.inr h))))

theorem loop_cause (l : List Pass) : ∀ {f f' : F} {e : Option Err}, f.loop l = some (f', e) →
    (f.peeked = true → f'.peeked = true) ∧ ∀ x, e = some x → (∃ a ∈ l, Cause a x) ∨ f'.peeked = true := by
  induction l with
  | nil => intro f f' e h; cases h
  | cons a l ih =>
    intro f f' e h
    unfold F.loop at h
    obtain ⟨⟨g, x, b⟩, q, h⟩ := Option.bind_eq_some_iff.1 h
    obtain ⟨p, c⟩ := pass_cause q
    cases b with
    | false =>
      simp only [Bool.false_eq_true, if_false] at h
      split at h
      · cases h; exact ⟨p, fun y hy => (c y hy).imp (fun hc => ⟨a, by simp, hc⟩) id⟩
      · cases h
    | true =>
      simp only [if_true] at h
      obtain ⟨p', c'⟩ := ih h
      exact ⟨fun hf => p' (p hf), fun y hy => (c' y hy).imp (fun ⟨a', h1, h2⟩ => ⟨a', by simp [h1], h2⟩) id⟩

/-- How the loop ends without an error. -/
theorem loop_end (l : List Pass) : ∀ {f f' : F}, f.loop l = some (f', none) →
    (f'.xbuf ≠ [] ∨ ∃ a, l.getLast? = some a ∧ a.bio = .later) ∧
    (f'.wdata ≠ [] → f'.xbuf ≠ [] ∨ f'.wantR = true ∨ f'.wantW = true) := by
  induction l with
  | nil => intro f f' h; cases h
  | cons a l ih =>
    intro f f' h
    unfold F.loop at h
    obtain ⟨⟨g, x, b⟩, q, h⟩ := Option.bind_eq_some_iff.1 h
    cases b with
    | true =>
      simp only [if_true] at h
      obtain ⟨i1, i2⟩ := ih h
      refine ⟨i1.imp id ?_, i2⟩
      rintro ⟨a', h1, h2⟩
      refine ⟨a', ?_, h2⟩
      cases l with
      | nil => simp at h1
      | cons c l => rw [List.getLast?_cons_cons]; exact h1
    | false =>
      simp only [Bool.false_eq_true, if_false] at h
      split at h
      · rename_i hl
        cases h
        have hl : l = [] := by simpa using hl
        subst hl
        obtain ⟨g1, g2, x, h1, x', h2, h3⟩ := pass_split q
        have fx : x' = none ∧ f' = g2 ∧ (g2.xbuf = [] → a.bio = .later) := by
          unfold F.fetch at h3
          split at h3
          · rename_i hc
            cases hl : a.bio with
            | data d => rw [hl] at h3; cases h3
            | later => rw [hl] at h3; cases h3; exact ⟨hc.1, rfl, fun _ => rfl⟩
            | fail => rw [hl] at h3; cases h3
          · rename_i hc
            cases h3
            exact ⟨rfl, rfl, fun hx => absurd ⟨rfl, hx⟩ hc⟩
        obtain ⟨e1, e2, e3⟩ := fx
        subst e1 e2
        refine ⟨?_, fun hw => ?_⟩
        · by_cases hx : f'.xbuf = []
          · exact .inr ⟨a, rfl, e3 hx⟩
          · exact .inl hx
        · unfold F.call at h2
          split at h2
          · split at h2
            · cases h2
            · cases hs : a.ssl with
              | none => rw [hs] at h2; cases h2; exact absurd rfl hw
              | some r =>
                rw [hs] at h2
                cases r with
                | wantRead => cases h2; exact .inr (.inl rfl)
                | wantWrite => cases h2; exact .inr (.inr rfl)
                | proto => cases h2
                | closed => cases h2
                | other => cases h2
          · rename_i hc
            split at h2
            · cases hs : a.ssl with
              | none => rw [hs] at h2; cases h2
              | some r =>
                rw [hs] at h2
                cases r with
                | wantRead => cases h2; exact .inr (.inl rfl)
                | wantWrite => cases h2; exact .inr (.inr rfl)
                | proto => cases h2
                | closed => cases h2
                | other => cases h2
            · cases h2
              refine .inl fun hx => hc ⟨rfl, hx, hw⟩
      · cases h

/-- A call without an error so far is the acceptance and the loop. -/
theorem ul_split {f f' : F} {sg : List (List UInt8)} {l : List Pass} {r : Ret} (he : f.err = none) (q : step f (.ul sg l) = some (f', r)) :
    ∃ g n g', f.accept sg = some (g, n) ∧ g.loop l = some (g', r.err) ∧ f' = { g' with err := r.err } ∧ r.count = n := by
  simp only [step, F.ulWrite, he] at q
  obtain ⟨⟨g, n⟩, qa, q⟩ := Option.bind_eq_some_iff.1 q
  obtain ⟨⟨g', e⟩, ql, q⟩ := Option.map_eq_some_iff.1 q
  cases q
  exact ⟨g, n, g', qa, ql, rfl, rfl⟩

/-- The end of `more`. -/
def F.moreEnd (g : F) (x : Option Err) (n : Nat) : Option (F × Ret) :=
  if x = none ∧ g.rdata ≠ [] then if g.inUl then none else some ({ g with inUl := true }, { count := n, offer := some g.rdata })
  else some (g.llEnd x n)

theorem more_end (f : F) (e : Option Err) (a : Rd) (n : Nat) : ∃ g x, g.given = f.given ∧ f.more e a n = F.moreEnd g x n := by
  unfold F.more
  by_cases hr : f.rdata = []
  · rw [if_pos hr]
    cases a with
    | data d => exact ⟨{ f with wantR := false, wantW := false, rpos := 0, rdata := d, got := f.got ++ d }, e, rfl, rfl⟩
    | no r =>
      by_cases he : e = none
      · subst he
        obtain ⟨p, q, h⟩ := handle_eq { f with wantR := false, wantW := false, rpos := 0 } r
        refine ⟨(F.handle { f with wantR := false, wantW := false, rpos := 0 } r).1, (F.handle { f with wantR := false, wantW := false, rpos := 0 } r).2, by rw [h], rfl⟩
      · simp only [he, if_false]
        exact ⟨{ f with wantR := false, wantW := false, rpos := 0 }, some .comm, rfl, rfl⟩
  · rw [if_neg hr]
    exact ⟨f, e, rfl, rfl⟩

/-- What `more` offers. -/
theorem more_offer {f f' : F} {e : Option Err} {a : Rd} {n : Nat} {r : Ret} (q : f.more e a n = some (f', r)) :
    (∀ d, r.offer = some d → d ≠ [] ∧ f'.rdata = d ∧ f'.inUl = true ∧ r.err = none) ∧ f'.given = f.given ∧ (r.offer = none → r.err = none → f'.rdata = []) := by
  obtain ⟨g, x, hg, h⟩ := more_end f e a n
  rw [h] at q
  unfold F.moreEnd at q
  by_cases hc : x = none ∧ g.rdata ≠ []
  · rw [if_pos hc] at q
    by_cases hi : g.inUl = true
    · rw [if_pos hi] at q; cases q
    · rw [if_neg hi] at q
      cases q
      exact ⟨fun d hd => by cases hd; exact ⟨hc.2, rfl, rfl, rfl⟩, hg, by simp⟩
  · rw [if_neg hc] at q
    have q' := Option.some.inj q
    have e1 : f' = if g.err = none then { g with err := x } else g := (congrArg Prod.fst q').symm
    have e2 : r = { err := x, count := n } := (congrArg Prod.snd q').symm
    subst e2
    refine ⟨by simp, ?_, fun _ hx => ?_⟩
    · rw [e1]; split <;> exact hg
    · have : g.rdata = [] := Decidable.byContradiction fun hn => hc ⟨hx, hn⟩
      rw [e1]; split <;> exact this

end Gensio.Ssl
