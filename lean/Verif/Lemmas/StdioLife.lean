import Verif.Model.StdioLife

/-!
# Lemmas about the life of the stdio gensio
-/

set_option maxHeartbeats 1000000

namespace Gensio.StdioLife

/-! ## One program per gensio -/

/-- A user that avoids what is violated above: one program per gensio, a
stderr channel allocated once and opened while its descriptor is there, whose
open succeeds, and no `gensio_free` of a gensio from another thread while its
`close_done` runs (a free inside of `close_done` is over before it returns).
Closes have a `close_done` (see `C206_noreport_violated` of the reading side),
and nothing is called after `gensio_free`. -/
def Careful (s : S) : Ev → Prop
  | .open .io _ => s.io.here = true ∧ s.io.inFree = false ∧ s.nextPid = 0
  | .open .err e => s.err.here = true ∧ s.err.inFree = false ∧ s.err.outI ≠ none ∧ e = 0
  | .close c d => (s.ch c).here = true ∧ (s.ch c).inFree = false ∧ d = true
  | .free c => (s.ch c).here = true ∧ (s.ch c).inFree = false
  | .cbRet c => (s.ch c).freeing = false
  | .alloc => s.io.here = true ∧ s.io.inFree = false ∧ s.err.inFree = false
  | _ => True

instance (s : S) (e : Ev) : Decidable (Careful s e) := by
  cases e <;> (try rename_i c _; cases c) <;> unfold Careful <;> infer_instance

/-- 1 for true. -/
def n (b : Bool) : Nat := if b then 1 else 0

/-- The references that are held. -/
def S.held (s : S) : Nat :=
  n s.io.here + n s.err.here + n s.io.inReg.isSome + n s.io.outReg.isSome + n s.err.outReg.isSome +
  n s.io.opPend + n s.err.opPend + n s.timer + n s.io.inCb + n s.err.inCb

/-- What holds of one channel. -/
structure ChInv (h : Ch) : Prop where
  inH : h.inH = h.inReg.isSome
  outH : h.outH = h.outReg.isSome
  inR : h.inReg ≠ none → h.inReg = h.inI
  outR : h.outReg ≠ none → h.outReg = h.outI
  inC : h.inClr = true → h.inReg ≠ none ∧ h.inClose = true ∧ h.defClose = false
  outC : h.outClr = true → h.outReg ≠ none ∧ h.inClose = true ∧ h.defClose = false
  clr : h.inClose = true → h.defClose = false →
    (h.inReg ≠ none → h.inClr = true) ∧ (h.outReg ≠ none → h.outClr = true)
  up : h.closed = false → h.outReg ≠ none ∧ h.inClose = false ∧ h.here = true
  ic : h.inClose = true → h.closed = true
  shut : h.closed = true → h.inClose = false → h.inReg = none ∧ h.outReg = none ∧ h.opPend = false
  dc : h.defClose = true → h.inClose = true ∧ h.outReg ≠ none ∧ h.opPend = true
  inO : h.inOpen = true → h.outReg ≠ none ∧ h.opPend = true ∧ h.inClr = false ∧ h.outClr = false
  opP : h.opPend = true → h.inOpen = true ∨ h.defClose = true
  cd : h.cdone = true → h.inClose = true
  cb : h.inCb = true → h.closed = true ∧ h.inClose = false ∧ h.inI = none ∧ h.outI = none
  fr : h.freeing = true → h.here = true ∧ h.inFree = true ∧ h.closed = true ∧ h.inClose = false
  fre : h.inFree = true → h.here = true → h.freeing = true ∨ h.inClose = true ∧ h.cdone = false
  gone : h.inClose = true → h.here = true ∨ h.inFree = true
  want : h.inClose = true → h.here = true → h.cdone = true ∨ h.inFree = true
  mine : h.inReg ≠ none ∨ h.outReg ≠ none → h.here = true
  cdH : h.cdone = true → h.here = true

/-- What holds of the descriptors and the program. -/
structure Core (s : S) : Prop where
  io : ChInv s.io
  er : ChInv s.err
  noIn : s.err.inI = none ∧ s.err.inReg = none
  ids : ∀ i, s.io.inI = some i → s.io.outI ≠ some i ∧ s.err.outI ≠ some i
  ids2 : ∀ i, s.io.outI = some i → s.err.outI ≠ some i
  pid : s.nextPid = 0 → s.io.inI = none ∧ s.io.outI = none ∧ s.err.outI = none ∧ s.opid = none ∧
    s.closing = none ∧ s.io.closed = true ∧ s.io.inClose = false ∧ s.err.here = false ∧
    s.err.closed = true ∧ s.err.inClose = false ∧ s.io.inCb = false ∧ s.err.inCb = false
  outs : s.io.outI ≠ none → s.io.outReg ≠ none
  ins : s.io.inI ≠ none → s.io.inReg ≠ none
  errs : s.err.outI ≠ none → s.err.outReg = none → s.io.inReg ≠ none ∨ s.io.outReg ≠ none
  cl : s.closing ≠ none → s.io.inI = none ∧ s.io.outI = none ∧ s.err.outI = none ∧
    s.io.opPend = false ∧ s.err.opPend = false ∧ s.io.closed = true ∧ s.err.closed = true

/-- A close that is to be reported goes on. -/
def S.goes (s : S) (c : C) : Prop :=
  (s.ch c).inClose = true → (s.ch c).here = true → ((s.ch c).cdone = true ∨ (s.ch c).inFree = true) →
    (s.ch c).defClose = true ∨ (s.ch c).inReg ≠ none ∨ (s.ch c).outReg ≠ none ∨
    (s.timer = true ∧ s.closing = some c)

/-- What holds without the references. -/
structure Shape (s : S) : Prop where
  core : Core s
  tm : s.timer = true → s.closing ≠ none
  clIo : s.timer = true → s.closing = some .io → s.io.inClose = true ∧ s.io.here = true ∧
    (s.io.cdone = true ∨ s.io.inFree = true)
  clErr : s.timer = true → s.closing = some .err → s.err.inClose = true ∧ s.err.here = true ∧
    (s.err.cdone = true ∨ s.err.inFree = true)
  goIo : s.goes .io
  goErr : s.goes .err

/-- What holds. -/
structure Inv (s : S) : Prop extends Shape s where
  ref : s.ref = s.held
  fd : s.freed = (s.ref == 0)

theorem inv_init : Inv init := by
  refine ⟨⟨⟨⟨?_, ?_, ?_, ?_, ?_, ?_, ?_, ?_, ?_, ?_, ?_, ?_, ?_, ?_, ?_, ?_, ?_, ?_, ?_, ?_, ?_⟩,
    ⟨?_, ?_, ?_, ?_, ?_, ?_, ?_, ?_, ?_, ?_, ?_, ?_, ?_, ?_, ?_, ?_, ?_, ?_, ?_, ?_, ?_⟩, ?_, ?_, ?_, ?_, ?_, ?_, ?_, ?_⟩,
    ?_, ?_, ?_, ?_, ?_⟩, ?_, ?_⟩ <;> simp [init, S.ch, S.held, n, S.goes]

/-- The state in which `check_waitpid` is run for a channel: its handlers are
gone, and the caller holds a reference. -/
structure Mid (s : S) (c : C) : Prop where
  core : Core s
  reg : (s.ch c).inReg = none ∧ (s.ch c).outReg = none
  iods : (s.ch c).inI = none ∧ (s.ch c).outI = none
  ic : (s.ch c).inClose = true
  tm : s.timer = false
  here : (s.ch c).here = true
  want : (s.ch c).cdone = true ∨ (s.ch c).inFree = true
  clo : s.closing = none ∨ s.closing = some c
  other : ∀ d, d ≠ c → s.goes d
  ref : s.ref = s.held + 1
  fd : s.freed = false

/-- Splits `Inv` into all its parts. -/
macro "inv_split" : tactic => `(tactic|
  refine ⟨⟨⟨⟨?_, ?_, ?_, ?_, ?_, ?_, ?_, ?_, ?_, ?_, ?_, ?_, ?_, ?_, ?_, ?_, ?_, ?_, ?_, ?_, ?_⟩,
    ⟨?_, ?_, ?_, ?_, ?_, ?_, ?_, ?_, ?_, ?_, ?_, ?_, ?_, ?_, ?_, ?_, ?_, ?_, ?_, ?_, ?_⟩, ?_, ?_, ?_, ?_, ?_, ?_, ?_, ?_⟩,
    ?_, ?_, ?_, ?_, ?_⟩, ?_, ?_⟩)

/-- Splits `Shape` into all its parts. -/
macro "shape_split" : tactic => `(tactic|
  refine ⟨⟨⟨?_, ?_, ?_, ?_, ?_, ?_, ?_, ?_, ?_, ?_, ?_, ?_, ?_, ?_, ?_, ?_, ?_, ?_, ?_, ?_, ?_⟩,
    ⟨?_, ?_, ?_, ?_, ?_, ?_, ?_, ?_, ?_, ?_, ?_, ?_, ?_, ?_, ?_, ?_, ?_, ?_, ?_, ?_, ?_⟩, ?_, ?_, ?_, ?_, ?_, ?_, ?_, ?_⟩,
    ?_, ?_, ?_, ?_, ?_⟩)

@[simp] theorem n_true : n true = 1 := rfl
@[simp] theorem n_false : n false = 0 := rfl

theorem closeAnyway_inv (s s' : S) (c : C) (os os' : List Out) (hm : Mid s c)
    (h : s.closeAnyway c os = some (s', os')) : Inv s' := by
  obtain ⟨⟨⟨a1, a2, a3, a4, a5, a6, a7, a8, a9, a10, a11, a12, a13, a14, a15, a16, a17, a18, a19, a20, a21⟩,
    ⟨b1, b2, b3, b4, b5, b6, b7, b8, b9, b10, b11, b12, b13, b14, b15, b16, b17, b18, b19, b20, b21⟩,
    d1, d2, d3, d4, d5, d6, d7, d8⟩, m1, m2, m3, m4, m5, m6, m7, m8, m9, m10⟩ := hm
  cases c
  · have m8' := m8 .err (by simp)
    simp only [S.closeAnyway, S.ch, S.set, S.deref, S.closeIod, S.goes, S.held] at *
    inv_split <;> grind [n, S.ch, S.goes, S.held]
  · have m8' := m8 .io (by simp)
    simp only [S.closeAnyway, S.ch, S.set, S.deref, S.closeIod, S.goes, S.held] at *
    inv_split <;> grind [n, S.ch, S.goes, S.held]

theorem closeAnyway_ne (s : S) (c : C) (os : List Out) (hm : Mid s c) : s.closeAnyway c os ≠ none := by
  obtain ⟨-, m1, m2, m3, m4, m5, m6, m7, m8, m9, m10⟩ := hm
  have h1 : s.closeIod (s.ch c).inI = true ∧ s.closeIod (s.ch c).outI = true := by
    simp [m2, S.closeIod]
  have h2 : n (s.ch c).here ≤ s.held := by cases c <;> simp only [S.ch, S.held] <;> omega
  simp only [S.closeAnyway, h1, Bool.and_self, if_true]
  split
  · simp
  · split
    · have : 1 < s.ref := by simp [m5, n] at h2; omega
      rw [if_neg (by omega)]
      have h3 : ∀ q : S, q.ref ≠ 0 → q.deref ≠ none := by intro q hq; simp [S.deref, hq]
      have h4 := h3 (S.set { s with ref := s.ref - 1 } c { s.ch c with inI := none, outI := none, here := false })
        (by cases c <;> simp [S.set] <;> omega)
      split
      · rename_i hx; exact absurd hx h4
      · simp
    · have h3 : ∀ q : S, q.ref ≠ 0 → q.deref ≠ none := by intro q hq; simp [S.deref, hq]
      have h4 := h3 (S.set s c { s.ch c with inI := none, outI := none })
        (by cases c <;> simp [S.set] <;> omega)
      split
      · rename_i hx; exact absurd hx h4
      · simp

theorem tryAgain_ne (s : S) (c : C) (hm : Mid s c) : s.tryAgain c ≠ none := by
  have := closeAnyway_ne s c [] hm
  have ht := hm.tm
  simp only [S.tryAgain, S.deref, ht]
  grind

theorem tryAgain_inv (s s' : S) (c : C) (os : List Out) (hm : Mid s c)
    (hz : s.io.inReg = none ∧ s.io.outReg = none ∧ s.err.outReg = none) (hp : s.nextPid ≠ 0)
    (h : s.tryAgain c = some (s', os)) : Inv s' := by
  simp only [S.tryAgain] at h
  split at h
  · exact closeAnyway_inv s s' c _ _ hm h
  · obtain ⟨⟨⟨a1, a2, a3, a4, a5, a6, a7, a8, a9, a10, a11, a12, a13, a14, a15, a16, a17, a18, a19, a20, a21⟩,
      ⟨b1, b2, b3, b4, b5, b6, b7, b8, b9, b10, b11, b12, b13, b14, b15, b16, b17, b18, b19, b20, b21⟩,
      d1, d2, d3, d4, d5, d6, d7, d8⟩, m1, m2, m3, m4, m5, m6, m7, m8, m9, m10⟩ := hm
    cases c
    · have m8' := m8 .err (by simp)
      simp only [S.ch, S.set, S.deref, S.goes, S.held] at *
      inv_split <;> grind [n, S.ch, S.goes, S.held]
    · have m8' := m8 .io (by simp)
      simp only [S.ch, S.set, S.deref, S.goes, S.held] at *
      inv_split <;> grind [n, S.ch, S.goes, S.held]

theorem mid_code (s : S) (c : C) (hm : Mid s c) (k : Nat) (b : Bool) :
    Mid { s with opid := none, codeSet := b, code := k } c := by
  obtain ⟨⟨c1, c2, c3, c4, c5, c6, c7, c8, c9, c10⟩, m1, m2, m3, m4, m5, m6, m7, m8, m9, m10⟩ := hm
  cases c <;>
  exact ⟨⟨c1, c2, c3, c4, c5, fun h => by have := c6 h; simp_all, c7, c8, c9, c10⟩, m1, m2, m3, m4, m5, m6, m7,
    fun d hd => by have := m8 d hd; cases d <;> exact this, m9, m10⟩

theorem mid_same (s : S) (c : C) (hm : Mid s c) : s.set c { s.ch c with inI := none, outI := none } = s := by
  obtain ⟨h1, h2⟩ := hm.iods
  cases c <;> simp only [S.set, S.ch] at *
  · rw [← h1]
    conv => lhs; rw [show s.io.inI = s.io.outI by rw [h1, h2]]
    rcases s with ⟨⟨⟩⟩; simp_all
  · rcases s with ⟨_, ⟨⟩⟩; simp_all

theorem check_both (s : S) (c0 c : C) (buf : Bool) (w : W) (hm : Mid s c) (hc : s.closing.getD c0 = c) :
    s.check c0 buf w ≠ none ∧ ∀ s' os, s.check c0 buf w = some (s', os) → Inv s' := by
  have h1 : s.closeIod (s.ch c).inI = true ∧ s.closeIod (s.ch c).outI = true := by
    simp [hm.iods, S.closeIod]
  have hn := closeAnyway_ne s c [] hm
  have hi := fun s' os => closeAnyway_inv s s' c [] os hm
  simp only [S.check, hc, hm.iods.2, Option.isSome_none, Bool.false_and, Bool.false_eq_true, if_false]
  have hsame := mid_same s c hm
  simp only [hm.iods.1, S.closeIod, Bool.and_self, if_true]
  rw [show ({ s.ch c with inI := none, outI := none } : Ch) = { s.ch c with inI := none, outI := none } from rfl, hsame]
  cases hp : s.opid with
  | none => exact ⟨hn, hi⟩
  | some p =>
    simp only
    split
    · rename_i hh
      have hz : s.io.inReg = none ∧ s.io.outReg = none ∧ s.err.outReg = none := by
        have e1 := hm.core.io.inH
        have e2 := hm.core.io.outH
        have e3 := hm.core.er.outH
        simp only [Bool.and_eq_true, Bool.not_eq_true'] at hh
        rw [hh.1.2] at e1; rw [hh.1.1] at e2; rw [hh.2] at e3
        simp_all
      have hnp : s.nextPid ≠ 0 := by
        intro h0
        have := (hm.core.pid h0).2.2.2.1
        rw [hp] at this; simp at this
      split
      · exact ⟨tryAgain_ne s c hm, fun s' os h => tryAgain_inv s s' c os hm hz hnp h⟩
      · split
        · have hm' := mid_code s c hm w.code true
          exact ⟨closeAnyway_ne _ c _ hm', fun s' os h => closeAnyway_inv _ s' c _ _ hm' h⟩
        · have hm' := mid_code s c hm s.code true
          exact ⟨closeAnyway_ne _ c _ hm', fun s' os h => closeAnyway_inv _ s' c _ _ hm' h⟩
    · exact ⟨hn, hi⟩


end Gensio.StdioLife
