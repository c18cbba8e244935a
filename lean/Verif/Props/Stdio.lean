import Verif.Model.Stdio

/-!
# Reading from the stdio gensio: C203–C206
-/

namespace Gensio.Stdio

/-! ## What is observed -/

/-- What is kept about a run, from the events and the outputs alone: the bytes
the system gave, the bytes the user took, and the data of the callbacks that
run now (one may be called from the handler, one from the deferred
operation). -/
structure N where
  got : List UInt8 := []
  used : List UInt8 := []
  offFd : Option (List UInt8) := none
  offOp : Option (List UInt8) := none
  /-- Calls of `gensio_close` with a `close_done` that returned 0. -/
  asked : Nat := 0
  /-- Calls of that `close_done`. -/
  done : Nat := 0
deriving DecidableEq, Repr

/-- The bytes that the system gave in these outputs. -/
def gotOf : List Out → List UInt8
  | [] => []
  | .got b :: os => b ++ gotOf os
  | _ :: os => gotOf os

/-- The data of the read callback in these outputs. -/
def dataOf : List Out → Option (List UInt8)
  | [] => none
  | .data b :: _ => some b
  | _ :: os => dataOf os

/-- What the user takes when a callback with this data returns: nothing if it
fails, at most what it got. -/
def taken (off : Option (List UInt8)) (e count : Nat) : List UInt8 :=
  match off with
  | none => []
  | some b => if e = 0 then b.take count else []

/-- The data of one event and its outputs is noted. -/
def N.note0 (n : N) (e : Ev) (os : List Out) : N :=
  match e with
  | .readReady _ _ =>
    match dataOf os with
    | none => { n with got := n.got ++ gotOf os }
    | some b => { n with got := n.got ++ gotOf os, offFd := some b }
  | .retFd e c => { n with used := n.used ++ taken n.offFd e c, offFd := dataOf os }
  | .retOp e c => { n with used := n.used ++ taken n.offOp e c, offOp := dataOf os }
  | .run =>
    match dataOf os with
    | none => n
    | some b => { n with offOp := some b }
  | _ => n

/-- One event and its outputs are noted. -/
def N.note (n : N) (e : Ev) (os : List Out) : N :=
  { n.note0 e os with asked := n.asked + (if e = .close true ∧ Out.ret 0 ∈ os then 1 else 0), done := n.done + os.count .closed }

/-- What the documentation asks of the user: nothing after `gensio_free`, no
write while the channel is not open, and no change of the read switch between
the close and its report. -/
def Polite (s : S) : Ev → Prop
  | .open _ => s.inFree = false
  | .close _ => s.inFree = false
  | .free => s.inFree = false
  | .enable _ => s.inFree = false ∧ s.inClose = false
  | .write _ => s.inFree = false ∧ s.closed = false
  | _ => True

instance (s : S) (e : Ev) : Decidable (Polite s e) := by
  cases e <;> unfold Polite <;> infer_instance

/-- A run, with what is noted about it. -/
inductive Runs : S → N → List Ev → S → N → Prop
  | nil (s : S) (n : N) : Runs s n [] s n
  | cons {s : S} {n : N} {e : Ev} {s1 : S} {os : List Out} {es : List Ev} {s2 : S} {n2 : N} :
      Polite s e → s.step e = some (s1, os) → Runs s1 (n.note e os) es s2 n2 →
      Runs s n (e :: es) s2 n2

/-! ## The invariant -/

/-- The deferred operation is in a read callback. -/
def S.reading (s : S) : Prop := ∃ c, s.op = some (.reading c)

structure Inv (s : S) : Prop where
  fd : s.fd ≠ none → s.inRead = true ∧ s.defRead = false ∧ ¬s.reading ∧ s.iod = true
  dr : s.defRead = true → s.inRead = true ∨ (s.reading ∧ s.llErr ≠ 0)
  rd : s.reading → s.fd = none ∧ s.inOpen = false ∧
    (s.inRead = true ∧ s.defRead = false ∨ s.llErr ≠ 0) ∧
    s.clearing = false ∧ s.iod = true
  cl : s.clearing = true → s.iod = true ∧ s.inClose = true ∧ s.defClose = false ∧
    s.renab = false ∧ s.op = none ∧ s.defRead = false ∧ s.inOpen = false ∧ s.opPend = false
  shut : s.closed = true → s.inClose = false → s.op = none ∧ s.defRead = false ∧ s.fd = none ∧
    s.defClose = false ∧ s.clearing = false ∧ s.inOpen = false ∧ s.opPend = false ∧ s.iod = false
  ic : s.inClose = true → s.closed = true
  dc : s.defClose = true → s.inClose = true ∧ s.iod = true ∧ s.clearing = false ∧ s.opPend = true
  up : s.closed = false → s.iod = true ∧ s.inIod = true ∧ s.clearing = false ∧ s.defClose = false
  over : s.inClose = true → s.clearing = false → s.defClose = false →
    s.iod = false ∧ s.op = none ∧ s.defRead = false ∧ s.fd = none ∧ s.inOpen = false ∧ s.opPend = false
  op : s.op ≠ none → s.opPend = true
  opn : s.op = some .opening → s.inOpen = true
  inop : s.inOpen = true → s.iod = true ∧ s.opPend = true
  pendOp : s.defRead = true → s.opPend = true
  gone : s.gone = true → s.inFree = true ∧ s.closed = true ∧ s.opPend = false

theorem inv_init : Inv init := by
  constructor <;> simp [init, S.reading]

/-- What is noted agrees with the state. -/
structure Agree (s : S) (n : N) : Prop where
  all : n.used ++ s.pend = n.got
  fd : n.offFd = if s.fd = some .data then some s.pend else none
  op : n.offOp = if s.op = some (.reading .data) then some s.pend else none

theorem ready_iff (s : S) :
    s.ready = true ↔ (s.pend ≠ [] ∨ s.llErr ≠ 0) ∧ s.renab = true := by
  simp [S.ready]

theorem opTail_ne (s : S) (h : s.defClose = true → s.iod = true) : s.opTail ≠ none := by
  simp only [S.opTail]
  grind

theorem opWhile_ne (s : S) (h : s.defClose = true → s.iod = true) : s.opWhile ≠ none := by
  have := opTail_ne s h
  simp only [S.opWhile]
  grind

theorem opRead_ne (s : S) (h : s.defClose = true → s.iod = true) : s.opRead ≠ none := by
  have h1 := opTail_ne s h
  have h2 := opWhile_ne { s with defRead := false } h
  simp only [S.opRead]
  grind

/-- What holds while the deferred operation runs with the lock held. -/
structure Mid (s : S) : Prop where
  op : s.op = none
  pend : s.opPend = true
  opn : s.inOpen = false
  cl : s.clearing = false
  iod : s.iod = true
  fd : s.fd ≠ none → s.inRead = true ∧ s.defRead = false
  dr : s.defRead = true → s.inRead = true ∨ s.llErr ≠ 0
  shut : s.closed = true → s.inClose = true ∧ s.defClose = true
  up : s.closed = false → s.inIod = true ∧ s.defClose = false ∧ s.inClose = false
  gone : s.gone = false

/-- What holds while the read handler runs with the lock held. -/
structure FdMid (s : S) : Prop where
  iod : s.iod = true
  inRead : s.inRead = true
  defRead : s.defRead = false
  rd : ¬s.reading
  alive : s.closed = true → s.inClose = true ∧ (s.clearing = true ∨ s.defClose = true)
  inv : Inv { s with fd := none }

theorem fdLoop_inv (s s' : S) (os : List Out) (hm : FdMid s) (h : s.fdLoop = (s', os)) :
    Inv s' := by
  obtain ⟨m1, m2, m3, m4, m5, ⟨i1, i2, i3, i4, i5, i6, i7, i8, i9, i10, i11, i12, i13, i14⟩⟩ := hm
  simp only [S.fdLoop, S.reading] at *
  split at h
  · simp only [S.call] at h
    constructor <;> grind [S.reading]
  · simp only [S.finish] at h
    constructor <;> grind [S.reading]

theorem opTail_inv (s s' : S) (os : List Out) (hm : Mid s) (h : s.opTail = some (s', os)) :
    Inv s' := by
  obtain ⟨m1, m2, m3, m4, m5, m6, m7, m8, m9, m10⟩ := hm
  cases hd : s.defClose
  · simp only [S.opTail, hd, Bool.false_eq_true, if_false, m3] at h
    split at h
    · split at h
      · simp only [S.call] at h
        constructor <;> grind [S.reading]
      · constructor <;> grind [S.reading]
    · constructor <;> grind [S.reading]
  · simp only [S.opTail, hd, if_true, m3, m5, S.ready, Bool.and_false, Bool.false_and,
      Bool.false_eq_true, if_false] at h
    split at h
    · constructor <;> grind [S.reading]
    · constructor <;> grind [S.reading]

theorem opWhile_inv (s s' : S) (os : List Out) (hm : Mid s)
    (hr : s.ready = true → s.fd = none ∧ (s.inRead = true ∧ s.defRead = false ∨ s.llErr ≠ 0))
    (h : s.opWhile = some (s', os)) : Inv s' := by
  have ht := opTail_inv s s' os hm
  obtain ⟨m1, m2, m3, m4, m5, m6, m7, m8, m9, m10⟩ := hm
  simp only [S.opWhile, S.call] at h
  split at h
  · constructor <;> grind [S.reading]
  · exact ht h

theorem opRead_inv (s s' : S) (os : List Out) (hm : Mid s)
    (hr : s.defRead = true → s.fd = none ∧ (s.inRead = true ∨ s.llErr ≠ 0))
    (h : s.opRead = some (s', os)) : Inv s' := by
  simp only [S.opRead] at h
  split at h
  · rename_i hd
    refine opWhile_inv { s with defRead := false } s' os ?_ ?_ h
    · obtain ⟨m1, m2, m3, m4, m5, m6, m7, m8, m9, m10⟩ := hm
      constructor <;> grind
    · intro _
      have := hr hd
      grind
  · exact opTail_inv s s' os hm h

theorem step_ne (s : S) (e : Ev) (hi : Inv s) (hp : Polite s e) : s.step e ≠ none := by
  intro h
  cases e <;> simp only [S.step, Polite] at h hp
  case write e =>
    simp only [S.writeCall] at h
    have := hi.up hp.2
    grind
  case retFd e c =>
    have := hi.fd
    simp only [S.back] at h
    grind
  case retOp e c =>
    have h3 := hi.rd
    have h12 := hi.inop
    have h11 := hi.opn
    have h7 := hi.dc
    rcases hop : s.op with _ | (_ | c')
    · simp [hop] at h
    · simp only [hop] at h
      have hiod := (h12 (h11 hop)).1
      rw [if_pos hiod] at h
      refine opRead_ne _ ?_ h
      exact fun _ => hiod
    · simp only [hop] at h
      have hiod : s.iod = true := (h3 ⟨c', hop⟩).2.2.2.2
      cases hb : S.back { s with op := none } c' e c with
      | none => simp only [S.back] at hb; grind
      | some r =>
        obtain ⟨s1, b⟩ := r
        have h1 : s1.iod = true := by simp only [S.back] at hb; grind
        have h2 : s1.finish.iod = true := by simp only [S.finish]; grind
        simp only [hb] at h
        have h3 := opWhile_ne s1.finish (fun _ => h2)
        cases b
        · exact h3 h
        · simp only at h
          split at h
          · simp at h
          · exact h3 h
  case run =>
    have h7 := hi.dc
    have h4 := opRead_ne s (fun h => (h7 h).2.1)
    grind
  all_goals grind

theorem readReady_inv (s s' : S) (e : Nat) (b : List UInt8) (os : List Out) (hi : Inv s)
    (h : s.step (.readReady e b) = some (s', os)) : Inv s' := by
  obtain ⟨i1, i2, i3, i4, i5, i6, i7, i8, i9, i10, i11, i12, i13, i14⟩ := hi
  simp only [S.step, S.reading] at *
  split at h
  · rename_i hc
    simp only [Bool.and_eq_true, Option.isNone_iff_eq_none, Bool.not_eq_true'] at hc
    simp only [S.readReady] at h
    split at h
    · constructor <;> grind [S.reading]
    · rename_i hn
      simp only [Bool.or_eq_true, Bool.not_eq_true', not_or, Bool.not_eq_true, Bool.not_eq_false] at hn
      split at h
      · constructor <;> grind [S.reading]
      · rename_i hle
        have hnr : ¬∃ c, s.op = some (Op.reading c) := by
          intro hr
          have := i3 hr
          simp only [hn.1.2] at this
          grind
        have hd : s.defRead = false := by
          cases hd : s.defRead
          · rfl
          · have := i2 hd
            simp only [hn.1.2] at this
            grind
        split at h
        · simp only [Option.some.injEq] at h
          refine fdLoop_inv _ s' os ?_ h
          refine ⟨?_, ?_, ?_, ?_, ?_, ⟨?_, ?_, ?_, ?_, ?_, ?_, ?_, ?_, ?_, ?_, ?_, ?_, ?_, ?_⟩⟩ <;> grind [S.reading]
        · simp only [Option.some.injEq, Prod.mk.injEq] at h
          refine fdLoop_inv { s with rh := false, inRead := true, pend := b } s' _ ?_ (Prod.ext h.1 rfl)
          refine ⟨?_, ?_, ?_, ?_, ?_, ⟨?_, ?_, ?_, ?_, ?_, ?_, ?_, ?_, ?_, ?_, ?_, ?_, ?_, ?_⟩⟩ <;> grind [S.reading]
  · constructor <;> grind [S.reading]

theorem retFd_inv (s s' : S) (e c : Nat) (os : List Out) (hi : Inv s)
    (h : s.step (.retFd e c) = some (s', os)) : Inv s' := by
  obtain ⟨i1, i2, i3, i4, i5, i6, i7, i8, i9, i10, i11, i12, i13, i14⟩ := hi
  simp only [S.step, S.reading] at *
  cases hf : s.fd with
  | none => simp only [hf] at h; constructor <;> grind [S.reading]
  | some c' =>
    simp only [hf] at h
    have hf' := i1 (by simp [hf])
    cases hb : s.back c' e c with
    | none => simp [hb] at h
    | some r =>
      obtain ⟨s1, b⟩ := r
      simp only [hb] at h
      have h1 : ∃ le p rh, s1 = { s with llErr := le, pend := p, rh := rh } ∧
          (s.llErr ≠ 0 → le ≠ 0) := by
        simp only [S.back] at hb
        split at hb
        · split at hb
          · simp at hb; exact ⟨e, s.pend, false, by simp [← hb.1], by grind⟩
          · simp at hb
        · cases c'
          · simp at hb; exact ⟨s.llErr, s.pend.drop c, s.rh, by simp [← hb.1], by grind⟩
          · simp at hb; exact ⟨s.llErr, s.pend, s.rh, by simp [← hb.1], by grind⟩
      obtain ⟨le, p, rh, rfl, hle⟩ := h1
      cases b
      · simp only [S.finish] at h
        constructor <;> grind [S.reading]
      · simp only [Option.some.injEq] at h
        refine fdLoop_inv _ s' os ?_ h
        refine ⟨?_, ?_, ?_, ?_, ?_, ⟨?_, ?_, ?_, ?_, ?_, ?_, ?_, ?_, ?_, ?_, ?_, ?_, ?_, ?_⟩⟩ <;> grind [S.reading]

theorem retOp_inv (s s' : S) (e c : Nat) (os : List Out) (hi : Inv s)
    (h : s.step (.retOp e c) = some (s', os)) : Inv s' := by
  obtain ⟨i1, i2, i3, i4, i5, i6, i7, i8, i9, i10, i11, i12, i13, i14⟩ := hi
  simp only [S.step, S.reading] at *
  rcases hop : s.op with _ | (_ | c')
  · simp only [hop] at h; constructor <;> grind [S.reading]
  · simp only [hop] at h
    have hiod := (i12 (i11 hop))
    rw [if_pos hiod.1] at h
    refine opRead_inv _ s' os ?_ ?_ h
    · constructor <;> grind
    · grind
  · simp only [hop] at h
    have hr := i3 ⟨c', hop⟩
    cases hb : S.back { s with op := none } c' e c with
    | none => simp [hb] at h
    | some r =>
      obtain ⟨s1, b⟩ := r
      simp only [hb] at h
      have h1 : ∃ le p rh, s1 = { s with op := none, llErr := le, pend := p, rh := rh } ∧
          (s.llErr ≠ 0 → le ≠ 0) ∧ (b = false → le ≠ 0) := by
        simp only [S.back] at hb
        split at hb
        · split at hb
          · simp at hb; exact ⟨e, s.pend, false, by simp [← hb.1], by grind⟩
          · simp at hb
        · cases c'
          · simp at hb; exact ⟨s.llErr, s.pend.drop c, s.rh, by simp [← hb.1], by grind⟩
          · simp at hb; exact ⟨s.llErr, s.pend, s.rh, by simp [← hb.1], by grind⟩
      obtain ⟨le, p, rh, rfl, hle, hble⟩ := h1
      cases b
      · simp only at h
        refine opWhile_inv _ s' os ?_ ?_ h
        · simp only [S.finish]; constructor <;> grind
        · simp only [S.finish]; grind
      · simp only at h
        split at h
        · simp only [S.call] at h
          constructor <;> grind [S.reading]
        · rename_i hnr
          refine opWhile_inv _ s' os ?_ ?_ h
          · simp only [S.finish]; constructor <;> grind
          · intro hr2; exfalso; apply hnr
            simp only [S.finish, ready_iff] at hr2 ⊢
            grind

theorem run_inv (s s' : S) (os : List Out) (hi : Inv s)
    (h : s.step .run = some (s', os)) : Inv s' := by
  obtain ⟨i1, i2, i3, i4, i5, i6, i7, i8, i9, i10, i11, i12, i13, i14⟩ := hi
  simp only [S.step, S.reading] at *
  split at h
  · rename_i hc
    simp only [Bool.and_eq_true, Option.isNone_iff_eq_none] at hc
    split at h
    · constructor <;> grind [S.reading]
    · refine opRead_inv _ s' os ?_ ?_ h
      · constructor <;> grind [S.reading]
      · grind
  · constructor <;> grind [S.reading]

theorem step_inv (s s' : S) (e : Ev) (os : List Out) (hi : Inv s) (hp : Polite s e)
    (h : s.step e = some (s', os)) : Inv s' := by
  have hI := hi
  obtain ⟨i1, i2, i3, i4, i5, i6, i7, i8, i9, i10, i11, i12, i13, i14⟩ := hi
  cases e
  case readReady e b => exact readReady_inv s s' e b os hI h
  case retFd e c => exact retFd_inv s s' e c os hI h
  case retOp e c => exact retOp_inv s s' e c os hI h
  case run => exact run_inv s s' os hI h
  all_goals simp only [S.step, Polite, S.reading] at h hp i1 i2 i3
  case «open» e =>
    simp only [S.openCall, S.startOp] at h
    constructor <;> grind [S.reading]
  case close e =>
    simp only [S.closeCall, S.iClose, S.startOp] at h
    constructor <;> grind [S.reading]
  case free =>
    simp only [S.freeCall, S.iClose, S.startOp] at h
    constructor <;> grind [S.reading]
  case enable b =>
    simp only [S.enableCall, S.startOp, Option.some.injEq, Prod.mk.injEq] at h
    obtain ⟨h, -⟩ := h
    split at h
    · subst h; constructor <;> assumption
    · split at h
      · subst h; constructor <;> grind [S.reading]
      · split at h
        · subst h; constructor <;> grind [S.reading]
        · split at h
          · subst h; constructor <;> grind [S.reading]
          · split at h
            · subst h; constructor <;> grind [S.reading]
            · subst h; constructor <;> grind [S.reading]
  case write e =>
    simp only [S.writeCall] at h
    constructor <;> grind [S.reading]
  case writeReady e =>
    simp only [S.writeReady] at h
    constructor <;> grind [S.reading]
  case cleared =>
    split at h
    · rename_i hc
      simp only [Bool.and_eq_true, Option.isNone_iff_eq_none] at hc
      have h4 := i4 hc.1
      simp only [S.clearedEv, h4.2.1, if_true] at h
      constructor <;> grind [S.reading]
    · constructor <;> grind [S.reading]

/-! ## C203: the data, in order and once -/

theorem call_ready (s : S) (h : s.ready = true) :
    (s.call.2.1 = .data ∧ s.call.2.2 = .data s.pend ∧ s.call.1 = s ∧ s.pend ≠ []) ∨
    (s.call.2.1 = .err ∧ s.call.2.2 = .err s.llErr ∧ s.call.1 = { s with renab := false } ∧
      s.pend = [] ∧ s.llErr ≠ 0) := by
  rw [ready_iff] at h
  simp only [S.call]
  split <;> grind

/-- What the deferred operation does to the data, the handler and the
callbacks. -/
structure OpOut (s s' : S) (os : List Out) : Prop where
  pend : s'.pend = s.pend
  fd : s'.fd = s.fd
  got : gotOf os = []
  data : dataOf os = if s'.op = some (.reading .data) then some s.pend else none

theorem start_out (s : S) (h : s.ready = true) :
    OpOut s { s.call.1 with op := some (.reading s.call.2.1) } [s.call.2.2] := by
  rcases call_ready s h with ⟨a, b, c, d⟩ | ⟨a, b, c, d, e⟩
  · rw [a, b, c]; constructor <;> simp [gotOf, dataOf]
  · rw [a, b, c]; constructor <;> simp [gotOf, dataOf]

theorem opTail_out (s s' : S) (os : List Out) (h : s.opTail = some (s', os)) : OpOut s s' os := by
  simp only [S.opTail] at h
  split at h
  · simp at h
  · rename_i s1 h1
    have hp : s1.pend = s.pend ∧ s1.fd = s.fd := by grind
    split at h
    · simp only [Option.some.injEq, Prod.mk.injEq] at h
      obtain ⟨rfl, rfl⟩ := h
      constructor <;> simp [gotOf, dataOf, hp]
    · split at h
      · split at h
        · rename_i hr
          simp only [Bool.and_eq_true] at hr
          simp only [Option.some.injEq, Prod.mk.injEq] at h
          have := start_out _ hr.1
          obtain ⟨rfl, rfl⟩ := h
          obtain ⟨a, b, c, d⟩ := this
          constructor <;> simp_all
        · simp only [Option.some.injEq, Prod.mk.injEq] at h
          obtain ⟨rfl, rfl⟩ := h
          constructor <;> simp [gotOf, dataOf, hp]
      · simp only [Option.some.injEq, Prod.mk.injEq] at h
        obtain ⟨rfl, rfl⟩ := h
        constructor <;> simp [gotOf, dataOf, hp]

theorem opWhile_out (s s' : S) (os : List Out) (h : s.opWhile = some (s', os)) : OpOut s s' os := by
  simp only [S.opWhile] at h
  split at h
  · rename_i hr
    simp only [Bool.and_eq_true] at hr
    simp only [Option.some.injEq, Prod.mk.injEq] at h
    obtain ⟨rfl, rfl⟩ := h
    exact start_out _ hr.1
  · exact opTail_out s s' os h

theorem opRead_out (s s' : S) (os : List Out) (h : s.opRead = some (s', os)) : OpOut s s' os := by
  simp only [S.opRead] at h
  split at h
  · obtain ⟨a, b, c, d⟩ := opWhile_out _ s' os h
    exact ⟨a, b, c, d⟩
  · exact opTail_out s s' os h

theorem fdLoop_out (s : S) :
    s.fdLoop.1.pend = s.pend ∧ s.fdLoop.1.op = s.op ∧ gotOf s.fdLoop.2 = [] ∧
    dataOf s.fdLoop.2 = if s.fdLoop.1.fd = some .data then some s.pend else none := by
  simp only [S.fdLoop]
  split
  · rename_i h
    rcases call_ready s h with ⟨a, b, c, d⟩ | ⟨a, b, c, d, e⟩ <;> simp [a, b, c, gotOf, dataOf]
  · simp only [S.finish]
    refine ⟨?_, ?_, ?_, ?_⟩ <;> grind [gotOf, dataOf]

theorem back_pend (s s1 : S) (c : Cb) (e k : Nat) (b : Bool) (h : s.back c e k = some (s1, b)) :
    s1.op = s.op ∧ s1.fd = s.fd ∧
    s1.pend = if e = 0 ∧ c = .data then s.pend.drop k else s.pend := by
  simp only [S.back] at h
  split at h
  · split at h
    · simp only [Option.some.injEq, Prod.mk.injEq] at h
      obtain ⟨rfl, rfl⟩ := h
      simp [*]
    · simp at h
  · cases c
    · simp only [Option.some.injEq, Prod.mk.injEq] at h
      obtain ⟨rfl, rfl⟩ := h
      simp_all
    · simp only [Option.some.injEq, Prod.mk.injEq] at h
      obtain ⟨rfl, rfl⟩ := h
      simp_all

theorem taken_drop (n g p : List UInt8) (c : Cb) (e k : Nat) (h : n ++ p = g) :
    (n ++ taken (if c = .data then some p else none) e k) ++
      (if e = 0 ∧ c = .data then p.drop k else p) = g := by
  cases c
  · by_cases he : e = 0
    · simp [taken, he, h]
    · simp [taken, he, h]
  · simp [taken, h]

theorem step_agree0 (s s' : S) (n : N) (e : Ev) (os : List Out) (hi : Inv s) (ha : Agree s n)
    (h : s.step e = some (s', os)) : Agree s' (n.note0 e os) := by
  obtain ⟨a1, a2, a3⟩ := ha
  cases e <;> simp only [S.step, N.note0] at *
  case «open» e =>
    simp only [S.openCall, S.startOp] at h
    constructor <;> grind
  case close e =>
    simp only [S.closeCall, S.iClose, S.startOp] at h
    constructor <;> grind
  case free =>
    simp only [S.freeCall, S.iClose, S.startOp] at h
    constructor <;> grind
  case enable b =>
    have : s'.pend = s.pend ∧ s'.fd = s.fd ∧ s'.op = s.op := by
      simp only [S.enableCall, S.startOp] at h
      grind
    constructor <;> grind
  case write e =>
    simp only [S.writeCall] at h
    constructor <;> grind
  case writeReady e =>
    simp only [S.writeReady] at h
    constructor <;> grind
  case readReady e b =>
    split at h
    · rename_i hc
      simp only [Bool.and_eq_true, Option.isNone_iff_eq_none] at hc
      simp only [S.readReady] at h
      split at h
      · simp only [Option.some.injEq, Prod.mk.injEq] at h
        obtain ⟨rfl, rfl⟩ := h
        constructor <;> simp_all [gotOf, dataOf]
      · rename_i hn
        split at h
        · simp only [Option.some.injEq, Prod.mk.injEq] at h
          obtain ⟨rfl, rfl⟩ := h
          constructor <;> simp_all [gotOf, dataOf]
        · split at h
          · simp only [Option.some.injEq] at h
            have hf := fdLoop_out { s with rh := false, inRead := true, llErr := e }
            rw [h] at hf
            simp only at hf
            constructor <;> grind
          · simp only [Option.some.injEq, Prod.mk.injEq] at h
            have hf := fdLoop_out { s with rh := false, inRead := true, pend := b }
            rw [h.1] at hf
            simp only at hf
            have hp : s.pend = [] := by simp_all
            have h2 := h.2
            have hg : gotOf os = b := by rw [← h2]; simp [gotOf, hf]
            have hd : dataOf os = if s'.fd = some .data then some b else none := by
              rw [← h2, ← hf.2.2.2]; simp [dataOf]
            have hno : s.op ≠ some (.reading .data) := by
              intro hr
              have := (hi.rd ⟨_, hr⟩).2.2.1
              simp_all
            constructor <;> grind
    · simp only [Option.some.injEq, Prod.mk.injEq] at h
      obtain ⟨rfl, rfl⟩ := h
      constructor <;> simp_all [gotOf, dataOf]
  case retFd e c =>
    cases hf : s.fd with
    | none =>
      simp only [hf, Option.some.injEq, Prod.mk.injEq] at h
      obtain ⟨rfl, rfl⟩ := h
      constructor <;> simp_all [taken, dataOf]
    | some c' =>
      simp only [hf] at h
      have hx := (hi.fd (by simp [hf])).2.2.1
      cases hb : s.back c' e c with
      | none => simp [hb] at h
      | some r =>
        obtain ⟨s1, b⟩ := r
        simp only [hb] at h
        have hbp := back_pend s s1 c' e c b hb
        have ht := taken_drop n.used n.got s.pend c' e c a1
        have hop : s'.op = s.op ∧ s'.pend = s1.pend ∧
            dataOf os = if s'.fd = some .data then some s1.pend else none := by
          cases b
          · simp only [S.finish] at h
            grind [dataOf]
          · simp only [Option.some.injEq] at h
            have hl := fdLoop_out s1
            rw [h] at hl
            grind
        have hno : ∀ c, s.op ≠ some (.reading c) := fun c hc => hx ⟨c, hc⟩
        constructor
        · rw [hop.2.1, hbp.2.2, a2, hf]
          simpa using ht
        · rw [hop.2.2, hop.2.1]
        · rw [hop.1, a3]; simp [hno]
  case retOp e c =>
    rcases hop : s.op with _ | (_ | c')
    · simp only [hop, Option.some.injEq, Prod.mk.injEq] at h
      obtain ⟨rfl, rfl⟩ := h
      constructor <;> simp_all [taken, dataOf]
    · simp only [hop] at h
      split at h
      · obtain ⟨o1, o2, o3, o4⟩ := opRead_out _ s' os h
        constructor <;> simp_all [taken]
      · simp at h
    · simp only [hop] at h
      have hfd := (hi.rd ⟨c', hop⟩).1
      cases hb : S.back { s with op := none } c' e c with
      | none => simp [hb] at h
      | some r =>
        obtain ⟨s1, b⟩ := r
        simp only [hb] at h
        have hbp := back_pend _ s1 c' e c b hb
        simp only at hbp
        have ht := taken_drop n.used n.got s.pend c' e c a1
        have hfin : s1.finish.pend = s1.pend ∧ s1.finish.fd = s1.fd := by
          simp only [S.finish]; grind
        have ho : OpOut s1 s' os := by
          have hw : S.opWhile s1.finish = some (s', os) → OpOut s1 s' os := by
            intro hw
            obtain ⟨o1, o2, o3, o4⟩ := opWhile_out _ s' os hw
            constructor <;> simp_all
          cases b
          · exact hw h
          · simp only at h
            split at h
            · rename_i hr
              simp only [Option.some.injEq, Prod.mk.injEq] at h
              obtain ⟨rfl, rfl⟩ := h
              exact start_out _ hr
            · exact hw h
        obtain ⟨o1, o2, o3, o4⟩ := ho
        constructor
        · rw [o1, hbp.2.2, a3, hop]
          simpa using ht
        · rw [o2, hbp.2.1, a2]; simp [hfd]
        · rw [o4, o1]
  case run =>
    split at h
    · rename_i hc
      simp only [Bool.and_eq_true, Option.isNone_iff_eq_none] at hc
      split at h
      · simp only [Option.some.injEq, Prod.mk.injEq] at h
        obtain ⟨rfl, rfl⟩ := h
        constructor <;> simp_all [dataOf]
      · obtain ⟨o1, o2, o3, o4⟩ := opRead_out _ s' os h
        have ho : n.offOp = none := by rw [a3, hc.2]; simp
        rw [o4]
        by_cases hr : s'.op = some (.reading .data)
        · simp only [hr, if_true]
          constructor <;> simp_all
        · simp only [hr, if_false]
          constructor <;> simp_all
    · simp only [Option.some.injEq, Prod.mk.injEq] at h
      obtain ⟨rfl, rfl⟩ := h
      constructor <;> simp_all [dataOf]
  case cleared =>
    have : s'.pend = s.pend ∧ s'.fd = s.fd ∧ s'.op = s.op := by
      simp only [S.clearedEv] at h
      grind
    constructor <;> grind

theorem step_agree (s s' : S) (n : N) (e : Ev) (os : List Out) (hi : Inv s) (ha : Agree s n)
    (h : s.step e = some (s', os)) : Agree s' (n.note e os) := by
  obtain ⟨a1, a2, a3⟩ := step_agree0 s s' n e os hi ha h
  exact ⟨a1, a2, a3⟩

theorem runs_both {s s' : S} {n n' : N} {es : List Ev} (hr : Runs s n es s' n') (hi : Inv s)
    (ha : Agree s n) : Inv s' ∧ Agree s' n' := by
  induction hr with
  | nil s n => exact ⟨hi, ha⟩
  | cons hp h _ ih => exact ih (step_inv _ _ _ _ hi hp h) (step_agree _ _ _ _ _ hi ha h)

theorem agree_init : Agree init {} := by constructor <;> simp [init]

/-- **C203**: whatever the user, the program and the threads do, the bytes the
user took, followed by the bytes that wait, are exactly the bytes the system
gave, over the whole life of the channel and all its sessions: nothing is
lost, doubled or put out of order.  The channel never uses a descriptor that
is not there. -/
theorem C203_stream {s : S} {n : N} {es : List Ev} (hr : Runs init {} es s n) (e : Ev)
    (hp : Polite s e) :
    n.used ++ s.pend = n.got ∧ ∃ r, s.step e = some r := by
  obtain ⟨hi, ha⟩ := runs_both hr inv_init agree_init
  refine ⟨ha.all, ?_⟩
  have := step_ne s e hi hp
  cases h : s.step e
  · exact absurd h this
  · exact ⟨_, rfl⟩

/-- What a step that calls the user says, and the state it leaves. -/
structure Told (s' : S) (os : List Out) : Prop where
  data : ∀ b, Out.data b ∈ os → s'.pend = b ∧ b ≠ [] ∧ s'.renab = true
  err : ∀ x, Out.err x ∈ os → s'.pend = [] ∧ s'.llErr = x ∧ x ≠ 0 ∧ s'.renab = false

theorem told_none (s' : S) (os : List Out) (h : ∀ o ∈ os, (∀ b, o ≠ .data b) ∧ ∀ x, o ≠ .err x) :
    Told s' os :=
  ⟨fun b hb => absurd rfl ((h _ hb).1 b), fun x hx => absurd rfl ((h _ hx).2 x)⟩

theorem start_told (s : S) (h : s.ready = true) (o : Option Op) :
    Told { s.call.1 with op := o } [s.call.2.2] := by
  have hr := (ready_iff s).1 h
  rcases call_ready s h with ⟨a, b, c, d⟩ | ⟨a, b, c, d, e⟩
  · rw [b, c]; constructor <;> simp_all
  · rw [b, c]; constructor <;> simp_all

theorem opTail_told (s s' : S) (os : List Out) (h : s.opTail = some (s', os)) : Told s' os := by
  simp only [S.opTail] at h
  split at h
  · simp at h
  · split at h
    · simp only [Option.some.injEq, Prod.mk.injEq] at h
      obtain ⟨rfl, rfl⟩ := h
      exact told_none _ _ (by simp)
    · split at h
      · split at h
        · rename_i hr
          simp only [Bool.and_eq_true] at hr
          simp only [Option.some.injEq, Prod.mk.injEq] at h
          obtain ⟨rfl, rfl⟩ := h
          exact start_told _ hr.1 _
        · simp only [Option.some.injEq, Prod.mk.injEq] at h
          obtain ⟨rfl, rfl⟩ := h
          exact told_none _ _ (by simp)
      · simp only [Option.some.injEq, Prod.mk.injEq] at h
        obtain ⟨rfl, rfl⟩ := h
        exact told_none _ _ (by simp)

theorem opWhile_told (s s' : S) (os : List Out) (h : s.opWhile = some (s', os)) : Told s' os := by
  simp only [S.opWhile] at h
  split at h
  · rename_i hr
    simp only [Bool.and_eq_true] at hr
    simp only [Option.some.injEq, Prod.mk.injEq] at h
    obtain ⟨rfl, rfl⟩ := h
    exact start_told _ hr.1 _
  · exact opTail_told s s' os h

theorem opRead_told (s s' : S) (os : List Out) (h : s.opRead = some (s', os)) : Told s' os := by
  simp only [S.opRead] at h
  split at h
  · exact opWhile_told _ s' os h
  · exact opTail_told s s' os h

theorem fdLoop_told (s : S) : Told s.fdLoop.1 s.fdLoop.2 := by
  simp only [S.fdLoop]
  split
  · rename_i h
    have hr := (ready_iff s).1 h
    rcases call_ready s h with ⟨a, b, c, d⟩ | ⟨a, b, c, d, e⟩
    · rw [a, b, c]; constructor <;> simp_all
    · rw [a, b, c]; constructor <;> simp_all
  · exact told_none _ _ (by simp)

theorem step_told (s s' : S) (e : Ev) (os : List Out) (h : s.step e = some (s', os)) :
    Told s' os := by
  cases e <;> simp only [S.step] at h
  case readReady e b =>
    split at h
    · simp only [S.readReady] at h
      split at h
      · refine told_none _ _ ?_; grind
      · split at h
        · refine told_none _ _ ?_; grind
        · split at h
          · simp only [Option.some.injEq] at h
            have := fdLoop_told { s with rh := false, inRead := true, llErr := e }
            rwa [h] at this
          · simp only [Option.some.injEq, Prod.mk.injEq] at h
            have := fdLoop_told { s with rh := false, inRead := true, pend := b }
            obtain ⟨rfl, rfl⟩ := h
            exact ⟨fun b hb => this.data b (by simpa using hb), fun x hx => this.err x (by simpa using hx)⟩
    · refine told_none _ _ ?_; grind
  case retFd e c =>
    split at h
    · refine told_none _ _ ?_; grind
    · split at h
      · simp at h
      · rename_i s1 _
        have := fdLoop_told s1
        simp only [Option.some.injEq] at h
        rwa [h] at this
      · refine told_none _ _ ?_; grind
  case retOp e c =>
    split at h
    · refine told_none _ _ ?_; grind
    · split at h
      · exact opRead_told _ _ _ h
      · simp at h
    · split at h
      · simp at h
      · split at h
        · rename_i hr
          simp only [Option.some.injEq, Prod.mk.injEq] at h
          obtain ⟨rfl, rfl⟩ := h
          exact start_told _ hr _
        · exact opWhile_told _ _ _ h
      · exact opWhile_told _ _ _ h
  case run =>
    split at h
    · split at h
      · refine told_none _ _ ?_; grind
      · exact opRead_told _ _ _ h
    · refine told_none _ _ ?_; grind
  case «open» e => refine told_none _ _ ?_; simp only [S.openCall] at h; grind
  case close e => refine told_none _ _ ?_; simp only [S.closeCall] at h; grind
  case free => refine told_none _ _ ?_; grind
  case enable e => refine told_none _ _ ?_; grind
  case write e => refine told_none _ _ ?_; simp only [S.writeCall] at h; grind
  case writeReady e => refine told_none _ _ ?_; grind
  case cleared => refine told_none _ _ ?_; simp only [S.clearedEv] at h; grind

/-- **C203**: every callback with data gives the user exactly the bytes that
came from the system and that it did not take yet, at least one of them, and
only while reading is switched on. -/
theorem C203_offer {s s' : S} {n : N} {es : List Ev} {e : Ev} {os : List Out} {b : List UInt8}
    (hr : Runs init {} es s n) (h : s.step e = some (s', os)) (hb : Out.data b ∈ os) :
    b ≠ [] ∧ (n.note e os).used ++ b = (n.note e os).got ∧ s'.renab = true := by
  obtain ⟨hi, ha⟩ := runs_both hr inv_init agree_init
  have ht := (step_told s s' e os h).data b hb
  have := (step_agree s s' n e os hi ha h).all
  rw [ht.1] at this
  exact ⟨ht.2.1, this, ht.2.2⟩

/-! ## C204: errors -/

/-- **C204**: an error is reported to the reader only when it has taken every
byte the system gave, it is a real error, and reading is switched off by the
report, so that it comes again only if the user asks. -/
theorem C204_last {s s' : S} {n : N} {es : List Ev} {e : Ev} {os : List Out} {x : Nat}
    (hr : Runs init {} es s n) (h : s.step e = some (s', os)) (hb : Out.err x ∈ os) :
    x ≠ 0 ∧ (n.note e os).used = (n.note e os).got ∧ s'.renab = false := by
  obtain ⟨hi, ha⟩ := runs_both hr inv_init agree_init
  have ht := (step_told s s' e os h).err x hb
  have := (step_agree s s' n e os hi ha h).all
  rw [ht.1, List.append_nil] at this
  exact ⟨ht.2.2.1, this, ht.2.2.2⟩

/-- **C204, partial**: what the read handler finds is told at once, an error as
an error and data as data, if no error came before.  What is missing: an error
that came before, from a write, see `C204_silent_violated`. -/
theorem C204_report_partial (s : S) (e : Nat) (b : List UInt8)
    (hrh : s.rh = true) (hio : s.iod = true) (hcl : s.clearing = false) (hfd : s.fd = none)
    (hen : s.renab = true) (hin : s.inRead = false) (hp : s.pend = []) (hl : s.llErr = 0) :
    (e ≠ 0 → ∃ s', s.step (.readReady e b) = some (s', [.err e])) ∧
    (e = 0 → b ≠ [] → ∃ s', s.step (.readReady e b) = some (s', [.got b, .data b])) := by
  constructor
  · intro he
    simp [S.step, hrh, hio, hcl, hfd, S.readReady, hen, hin, hp, hl, he, S.fdLoop, S.ready, S.call]
  · intro he hb
    simp [S.step, hrh, hio, hcl, hfd, S.readReady, hen, hin, hp, hl, he, S.fdLoop, S.ready, S.call, hb]

/-- An open channel with an error, nothing to deliver and nothing under way. -/
def Silent (s : S) : Prop :=
  s.llErr ≠ 0 ∧ s.pend = [] ∧ s.fd = none ∧ s.op = none ∧ s.opPend = false ∧ s.closed = false ∧
  s.clearing = false ∧ s.iod = true

theorem silent_step (s s' : S) (e : Ev) (os : List Out) (hs : Silent s)
    (hc : ∀ d, e ≠ .close d) (hf : e ≠ .free) (h : s.step e = some (s', os)) :
    Silent s' ∧ ∀ o ∈ os, ∃ x, o = .ret x := by
  obtain ⟨h1, h2, h3, h4, h5, h6, h7, h8⟩ := hs
  cases e <;> simp only [S.step] at h
  case «open» e => simp only [S.openCall] at h; simp only [Silent]; grind
  case close e => exact absurd rfl (hc e)
  case free => exact absurd rfl hf
  case enable b =>
    simp only [S.enableCall, S.startOp, h2, List.isEmpty_nil, Bool.not_true, Bool.false_and,
      Bool.or_false, Bool.false_eq_true, if_false, Option.some.injEq, Prod.mk.injEq] at h
    obtain ⟨h, rfl⟩ := h
    refine ⟨?_, by simp⟩
    simp only [Silent]
    split at h
    · subst h; exact ⟨h1, h2, h3, h4, h5, h6, h7, h8⟩
    · split at h
      · subst h; exact ⟨h1, rfl, h3, h4, h5, h6, h7, h8⟩
      · split at h
        · subst h; exact ⟨h1, rfl, h3, h4, h5, h6, h7, h8⟩
        · subst h; exact ⟨h1, rfl, h3, h4, h5, h6, h7, h8⟩
  case write e => simp only [S.writeCall] at h; simp only [Silent]; grind
  case writeReady e => simp only [S.writeReady] at h; simp only [Silent]; grind
  case readReady e b =>
    simp only [S.readReady, h1, h2] at h
    simp only [Silent]; grind
  case retFd e c => simp only [h3] at h; simp only [Silent]; grind
  case retOp e c => simp only [h4] at h; simp only [Silent]; grind
  case run => simp only [h5] at h; simp only [Silent]; grind
  case cleared => simp only [h7] at h; simp only [Silent]; grind

theorem silent_run (es : List Ev) (s s' : S) (os : List Out) (hs : Silent s)
    (hc : ∀ e ∈ es, (∀ d, e ≠ .close d) ∧ e ≠ .free) (h : s.run es = some (s', os)) :
    Silent s' ∧ ∀ o ∈ os, ∃ x, o = .ret x := by
  induction es generalizing s os with
  | nil =>
    simp only [S.run, Option.some.injEq, Prod.mk.injEq] at h
    obtain ⟨rfl, rfl⟩ := h
    exact ⟨hs, by simp⟩
  | cons e es ih =>
    simp only [S.run] at h
    split at h
    · simp at h
    · rename_i s1 o1 h1
      split at h
      · simp at h
      · rename_i s2 o2 h2
        simp only [Option.some.injEq, Prod.mk.injEq] at h
        obtain ⟨rfl, rfl⟩ := h
        have ha := silent_step s s1 e o1 hs (hc e (by simp)).1 (hc e (by simp)).2 h1
        have hb := ih s1 o2 ha.1 (fun e he => hc e (by simp [he])) h2
        refine ⟨hb.1, fun o ho => ?_⟩
        rcases List.mem_append.1 ho with ho | ho
        · exact ha.2 o ho
        · exact hb.2 o ho

/-- A channel that is open and reads, after a write failed with `GE_REMCLOSE`
(6 stands for it). -/
def brokenWrite : List Ev := [.open 0, .run, .retOp 0 0, .enable true, .write 6]

/-- **C204 is violated**: a write fails (the program closed its input, say)
while reading is switched on.  From then on, whatever the program prints and
however long one waits, whatever the user switches or writes, no callback ever
comes: neither the data the program still prints nor an error.  The read
handler sees `ll_err` and does nothing (`gensio_stdio.c:576-579`). -/
theorem C204_silent_violated :
    ∃ s os, init.run brokenWrite = some (s, os) ∧ s.renab = true ∧ s.rh = true ∧
      ∀ es s' os', (∀ e ∈ es, (∀ d, e ≠ Ev.close d) ∧ e ≠ .free) → s.run es = some (s', os') →
        ∀ o ∈ os', ∃ x, o = .ret x := by
  refine ⟨_, _, rfl, rfl, rfl, ?_⟩
  intro es s' os' hc h
  exact (silent_run es _ s' os' (by unfold Silent; decide) hc h).2

/-! ## C205: sessions -/

/-- **C205 is violated**: the user leaves a byte, closes, opens again (a new
program is started) and switches reading on: it gets the byte of the old
program as the first of the new one, though nothing was read since the open.
`stdion_open` (`gensio_stdio.c:684-756`) does not empty the buffer. -/
theorem C205_stale_violated :
    ∃ s os, init.run [.open 0, .run, .retOp 0 0, .enable true, .readReady 0 [65, 66],
        .enable false, .retFd 0 1, .close true, .run, .cleared] = some (s, os) ∧
      s.closed = true ∧ s.inClose = false ∧
      ∃ s', s.run [.open 0, .run, .retOp 0 0, .enable true, .run] =
        some (s', [.ret 0, .opened, .data [66]]) := by
  refine ⟨_, _, rfl, by decide, by decide, _, rfl⟩

/-- **C205, partial**: if nothing waits when a session begins, all that is
delivered in it was read in it, in order.  What is missing: sessions that begin
with data of the last one, see `C205_stale_violated`. -/
theorem C205_fresh_partial {s s1 s2 : S} {n n2 : N} {es es2 : List Ev} {os : List Out}
    (hr : Runs init {} es s n) (hc : s.closed = true) (hd : s.inClose = false)
    (hf : s.inFree = false) (hp : s.pend = [])
    (h : s.step (.open 0) = some (s1, os)) (hr2 : Runs s1 {} es2 s2 n2) :
    n2.used ++ s2.pend = n2.got ∧ os = [.ret 0] := by
  obtain ⟨hi, ha⟩ := runs_both hr inv_init agree_init
  have hi1 := step_inv s s1 (.open 0) os hi hf h
  have hs := hi.shut hc hd
  simp [S.step, S.openCall, S.startOp, hc, hd] at h
  obtain ⟨rfl, rfl⟩ := h
  refine ⟨(runs_both hr2 hi1 ?_).2.all, rfl⟩
  constructor <;> simp [hp, hs.1, hs.2.2.1]

/-- **C205 is violated**: if reading is switched on in the `open_done` of the
second session, the data of the old session that waits stops the new one: the
handler is on, is called, switches itself off and returns
(`gensio_stdio.c:572-575`), and nothing is under way any more. -/
theorem C205_blocked_violated :
    ∃ s os, init.run [.open 0, .run, .retOp 0 0, .enable true, .readReady 0 [65, 66],
        .enable false, .retFd 0 1, .close true, .run, .cleared,
        .open 0, .run, .enable true, .retOp 0 0] = some (s, os) ∧
      s.renab = true ∧ ∃ s', s.step (.readReady 0 [67]) = some (s', []) ∧
        s'.rh = false ∧ s'.opPend = false ∧ s'.fd = none ∧ s'.pend = [66] := by
  refine ⟨_, _, rfl, by decide, _, rfl, ?_⟩
  decide

/-! ## C206: the end -/

/-- **C206 is violated**: `gensio_close` returned 0, and the user is called
with data again; and the same after `gensio_free`, when the user may have
given up the memory its callback uses.  `i_stdion_close`
(`gensio_stdio.c:817-832`) leaves `read_enabled` on, and the loop of
`stdion_finish_read` asks for nothing else (`:245-246`). -/
theorem C206_after_violated :
    (∃ s os, init.run [.open 0, .run, .retOp 0 0, .enable true, .readReady 0 [65, 66],
        .close true] = some (s, os) ∧ os.getLast? = some (.ret 0) ∧
      ∃ s', s.step (.retFd 0 1) = some (s', [.data [66]])) ∧
    (∃ s os, init.run [.open 0, .run, .retOp 0 0, .enable true, .readReady 0 [65, 66],
        .free] = some (s, os) ∧
      ∃ s', s.step (.retFd 0 1) = some (s', [.data [66]])) := by
  refine ⟨⟨_, _, rfl, by decide, _, rfl⟩, ⟨_, _, rfl, _, rfl⟩⟩

/-- **C206, partial**: once the deferred operation has begun to close, and when
the close is over, the user gets no read callback, from no polite event but an
open.  What is missing: the time between the call and the deferred operation,
see `C206_after_violated`. -/
theorem C206_quiet_partial {s s' : S} {n : N} {es : List Ev} {e : Ev} {os : List Out}
    (hr : Runs init {} es s n)
    (hc : (s.clearing = true ∧ s.fd = none) ∨ (s.closed = true ∧ s.inClose = false))
    (h : s.step e = some (s', os)) :
    ∀ o ∈ os, (∀ b, o ≠ .data b) ∧ ∀ x, o ≠ .err x := by
  obtain ⟨hi, ha⟩ := runs_both hr inv_init agree_init
  have h4 := hi.cl
  have h5 := hi.shut
  cases e <;> simp only [S.step] at h
  case «open» e => simp only [S.openCall] at h; grind
  case close e => simp only [S.closeCall] at h; grind
  case free => grind
  case enable e => grind
  case write e => simp only [S.writeCall] at h; grind
  case writeReady e => grind
  case readReady e b => grind
  case retFd e c => grind
  case retOp e c => grind
  case run => grind
  case cleared => simp only [S.clearedEv] at h; grind

/-- The count of close reports. -/
structure Counts (s : S) (n : N) : Prop where
  le : n.done + (if s.cdone then 1 else 0) ≤ n.asked
  eq : s.inFree = false → n.done + (if s.cdone then 1 else 0) = n.asked
  cd : s.cdone = true → s.inClose = true

theorem noclose_opTail (s s' : S) (os : List Out) (h : s.opTail = some (s', os)) :
    os.count .closed = 0 ∧ s'.cdone = s.cdone ∧ s'.inClose = s.inClose ∧ s'.inFree = s.inFree := by
  simp only [S.opTail, S.call] at h
  grind

theorem noclose_opWhile (s s' : S) (os : List Out) (h : s.opWhile = some (s', os)) :
    os.count .closed = 0 ∧ s'.cdone = s.cdone ∧ s'.inClose = s.inClose ∧ s'.inFree = s.inFree := by
  have := noclose_opTail s s' os
  simp only [S.opWhile, S.call] at h
  grind

theorem noclose_opRead (s s' : S) (os : List Out) (h : s.opRead = some (s', os)) :
    os.count .closed = 0 ∧ s'.cdone = s.cdone ∧ s'.inClose = s.inClose ∧ s'.inFree = s.inFree := by
  have h1 := noclose_opTail s s' os
  have h2 := noclose_opWhile { s with defRead := false } s' os
  simp only [S.opRead] at h
  grind

theorem noclose_fdLoop (s : S) :
    s.fdLoop.2.count .closed = 0 ∧ s.fdLoop.1.cdone = s.cdone ∧ s.fdLoop.1.inClose = s.inClose ∧
    s.fdLoop.1.inFree = s.inFree := by
  simp only [S.fdLoop, S.call, S.finish]
  grind

theorem back_cdone (s s1 : S) (c : Cb) (e k : Nat) (b : Bool) (h : s.back c e k = some (s1, b)) :
    s1.cdone = s.cdone ∧ s1.inClose = s.inClose ∧ s1.inFree = s.inFree := by
  simp only [S.back] at h
  grind

theorem step_counts (s s' : S) (n : N) (e : Ev) (os : List Out) (hp : Polite s e)
    (ha : Counts s n) (h : s.step e = some (s', os)) : Counts s' (n.note e os) := by
  obtain ⟨a1, a2, a3⟩ := ha
  have key : ∀ (_ : os.count .closed = 0) (_ : s'.cdone = s.cdone) (_ : s'.inClose = s.inClose)
      (_ : s'.inFree = s.inFree) (_ : e ≠ .close true), Counts s' (n.note e os) := by
    intro k1 k2 k3 k4 k5
    constructor <;> simp only [N.note, k1, k2, k3, k4, k5, false_and, if_false, Nat.add_zero] <;> assumption
  cases e <;> simp only [S.step, Polite] at h hp
  case «open» e => simp only [S.openCall, S.startOp] at h; apply key <;> grind
  case close d =>
    simp only [S.closeCall, S.iClose, S.startOp] at h
    split at h
    · simp only [Option.some.injEq, Prod.mk.injEq] at h
      obtain ⟨rfl, rfl⟩ := h
      constructor <;> simp_all [N.note, GE_NOTREADY]
    · simp only [Option.some.injEq, Prod.mk.injEq] at h
      obtain ⟨rfl, rfl⟩ := h
      have hno : s.cdone = false := by grind
      constructor <;> cases d <;> simp_all [N.note]
  case free =>
    simp only [S.freeCall, S.iClose, S.startOp] at h
    constructor <;> (try simp only [N.note]) <;> grind
  case enable e => simp only [S.enableCall, S.startOp] at h; apply key <;> grind
  case write e => simp only [S.writeCall] at h; apply key <;> grind
  case writeReady e => simp only [S.writeReady] at h; apply key <;> grind
  case readReady e b =>
    have h1 := noclose_fdLoop { s with rh := false, inRead := true, llErr := e }
    have h2 := noclose_fdLoop { s with rh := false, inRead := true, pend := b }
    simp only [S.readReady] at h
    apply key <;> grind
  case retFd e c =>
    split at h
    · apply key <;> grind
    · split at h
      · simp at h
      · rename_i s1 hb
        have h1 := noclose_fdLoop s1
        have h2 := back_cdone _ _ _ _ _ _ hb
        simp only [Option.some.injEq] at h
        rw [h] at h1
        apply key <;> grind
      · rename_i s1 hb
        have h2 := back_cdone _ _ _ _ _ _ hb
        simp only [S.finish] at h
        apply key <;> grind
  case retOp e c =>
    split at h
    · apply key <;> grind
    · split at h
      · have := noclose_opRead _ _ _ h
        apply key <;> grind
      · simp at h
    · split at h
      · simp at h
      · rename_i s1 hb
        have h2 := back_cdone _ _ _ _ _ _ hb
        split at h
        · simp only [S.call] at h
          apply key <;> grind
        · have h1 := noclose_opWhile _ _ _ h
          simp only [S.finish] at h1
          apply key <;> grind
      · rename_i s1 hb
        have h2 := back_cdone _ _ _ _ _ _ hb
        have h1 := noclose_opWhile _ _ _ h
        simp only [S.finish] at h1
        apply key <;> grind
  case run =>
    split at h
    · split at h
      · apply key <;> grind
      · have h1 := noclose_opRead _ _ _ h
        apply key <;> grind
    · apply key <;> grind
  case cleared =>
    simp only [S.clearedEv] at h
    constructor <;> (try simp only [N.note]) <;> grind

theorem runs_counts {s s' : S} {n n' : N} {es : List Ev} (hr : Runs s n es s' n')
    (hc : Counts s n) : Counts s' n' := by
  induction hr with
  | nil s n => exact hc
  | cons hp h _ ih => exact ih (step_counts _ _ _ _ _ hp hc h)

/-- **C206**: `close_done` is called at most once for every close that was
accepted with one, and for a gensio that was not freed exactly as often, but
for the close under way. -/
theorem C206_reports {s : S} {n : N} {es : List Ev} (hr : Runs init {} es s n) :
    n.done ≤ n.asked ∧ (s.inFree = false → s.inClose = false → n.done = n.asked) := by
  obtain ⟨a1, a2, a3⟩ := runs_counts hr (n := {}) (by constructor <;> simp [init])
  grind

/-- The end of a close without a `close_done`. -/
def Stuck (s : S) : Prop :=
  s.closed = true ∧ s.inClose = true ∧ s.cdone = false ∧ s.clearing = false ∧ s.defClose = false ∧
  s.opPend = false ∧ s.fd = none ∧ s.op = none ∧ s.iod = false ∧ s.gone = false

theorem stuck_step (s s' : S) (e : Ev) (os : List Out) (hs : Stuck s) (hp : Polite s e)
    (h : s.step e = some (s', os)) :
    (∃ b, e = .enable b) ∨ (Stuck s' ∧ ∀ o ∈ os, o = .ret GE_NOTREADY) := by
  obtain ⟨h1, h2, h3, h4, h5, h6, h7, h8, h9, h10⟩ := hs
  cases e <;> simp only [S.step, Polite] at h hp
  case «open» e => simp only [S.openCall, h1, h2] at h; simp only [Stuck]; grind
  case close e => simp only [S.closeCall, h1] at h; simp only [Stuck]; grind
  case free => simp only [S.freeCall, h2] at h; simp only [Stuck]; grind
  case enable b => exact .inl ⟨b, rfl⟩
  case write e => grind
  case writeReady e => simp only [h9] at h; simp only [Stuck]; grind
  case readReady e b => simp only [h9] at h; simp only [Stuck]; grind
  case retFd e c => simp only [h7] at h; simp only [Stuck]; grind
  case retOp e c => simp only [h8] at h; simp only [Stuck]; grind
  case run => simp only [h6] at h; simp only [Stuck]; grind
  case cleared => simp only [h4] at h; simp only [Stuck]; grind

theorem stuck_runs {s s' : S} {n n' : N} {es : List Ev} (hr : Runs s n es s' n') (hs : Stuck s) :
    Stuck s' := by
  induction hr with
  | nil s n => exact hs
  | cons hp h _ ih =>
    rcases stuck_step _ _ _ _ hs hp h with ⟨b, rfl⟩ | h'
    · have : _ = false := hp.2
      rw [hs.2.1] at this
      simp at this
    · exact ih h'.1

/-- **C206 is violated**: a close without a `close_done`, which the interface
allows, never ends: `in_close` is set back only if there is one
(`gensio_stdio.c:349-359`).  Whatever polite events follow, an open is refused
with `GE_NOTREADY`, and `gensio_free` frees nothing. -/
theorem C206_noreport_violated :
    ∃ s n, Runs init {} [.open 0, .run, .retOp 0 0, .close false, .run, .cleared] s n ∧
      ∀ es s' n', Runs s n es s' n' →
        s'.gone = false ∧ s'.step (.open 0) = some (s', [.ret GE_NOTREADY]) := by
  refine ⟨_, _, .cons (by decide) rfl (.cons (by decide) rfl (.cons (by decide) rfl
    (.cons (by decide) rfl (.cons (by decide) rfl (.cons (by decide) rfl (.nil _ _)))))), ?_⟩
  intro es s' n' hr
  have := stuck_runs hr (by unfold Stuck; decide)
  refine ⟨this.2.2.2.2.2.2.2.2.2, ?_⟩
  simp [S.step, S.openCall, this.2.1]

/-- **C206, partial**: with a `close_done` the close ends when the descriptors
are cleared: the report comes, and the gensio can be opened again or freed at
once. -/
theorem C206_ends_partial (s : S) (hc : s.clearing = true) (hf : s.fd = none)
    (hi : s.inClose = true) (hd : s.cdone = true) (hcl : s.closed = true) (hfr : s.inFree = false) :
    ∃ s', s.step .cleared = some (s', [.closed]) ∧
      (∃ s2, s'.step (.open 0) = some (s2, [.ret 0])) ∧ ∃ s2, s'.step .free = some (s2, []) ∧ s2.gone = true := by
  simp [S.step, hc, hf, S.clearedEv, hi, hd, hfr, S.openCall, hcl, S.freeCall]

/-! ## C207: reading goes on -/

/-- An open channel that believes it reads, but does not. -/
def Asleep (s : S) : Prop :=
  s.inRead = true ∧ s.defRead = false ∧ s.fd = none ∧ s.op = none ∧ s.opPend = false ∧
  s.closed = false ∧ s.clearing = false ∧ s.iod = true

theorem asleep_step (s s' : S) (e : Ev) (os : List Out) (hs : Asleep s)
    (hc : ∀ d, e ≠ .close d) (hf : e ≠ .free) (h : s.step e = some (s', os)) :
    Asleep s' ∧ ∀ o ∈ os, ∃ x, o = .ret x := by
  obtain ⟨h1, h2, h3, h4, h5, h6, h7, h8⟩ := hs
  cases e <;> simp only [S.step] at h
  case «open» e => simp only [S.openCall] at h; simp only [Asleep]; grind
  case close e => exact absurd rfl (hc e)
  case free => exact absurd rfl hf
  case enable b =>
    simp only [S.enableCall, h1, Bool.true_or, if_true, Option.some.injEq, Prod.mk.injEq] at h
    obtain ⟨h, rfl⟩ := h
    refine ⟨?_, by simp⟩
    simp only [Asleep]
    split at h
    · subst h; exact ⟨h1, h2, h3, h4, h5, h6, h7, h8⟩
    · split at h
      · subst h; exact ⟨rfl, h2, h3, h4, h5, h6, h7, h8⟩
      · subst h; exact ⟨rfl, h2, h3, h4, h5, h6, h7, h8⟩
  case write e =>
    simp only [S.writeCall] at h
    split at h
    · simp only [Option.some.injEq, Prod.mk.injEq] at h
      obtain ⟨rfl, rfl⟩ := h
      exact ⟨⟨h1, h2, h3, h4, h5, h6, h7, h8⟩, by simp⟩
    · split at h
      · simp only [Option.some.injEq, Prod.mk.injEq] at h
        obtain ⟨rfl, rfl⟩ := h
        exact ⟨⟨h1, h2, h3, h4, h5, h6, h7, h8⟩, by simp⟩
      · simp at h
  case writeReady e => simp only [S.writeReady] at h; simp only [Asleep]; grind
  case readReady e b =>
    simp only [S.readReady, h1, Bool.or_true, Bool.true_or, if_true] at h
    simp only [Asleep]; grind
  case retFd e c => simp only [h3] at h; simp only [Asleep]; grind
  case retOp e c => simp only [h4] at h; simp only [Asleep]; grind
  case run => simp only [h5] at h; simp only [Asleep]; grind
  case cleared => simp only [h7] at h; simp only [Asleep]; grind

theorem asleep_run (es : List Ev) (s s' : S) (os : List Out) (hs : Asleep s)
    (hc : ∀ e ∈ es, (∀ d, e ≠ .close d) ∧ e ≠ .free) (h : s.run es = some (s', os)) :
    Asleep s' ∧ ∀ o ∈ os, ∃ x, o = .ret x := by
  induction es generalizing s os with
  | nil =>
    simp only [S.run, Option.some.injEq, Prod.mk.injEq] at h
    obtain ⟨rfl, rfl⟩ := h
    exact ⟨hs, by simp⟩
  | cons e es ih =>
    simp only [S.run] at h
    split at h
    · simp at h
    · rename_i s1 o1 h1
      split at h
      · simp at h
      · rename_i s2 o2 h2
        simp only [Option.some.injEq, Prod.mk.injEq] at h
        obtain ⟨rfl, rfl⟩ := h
        have ha := asleep_step s s1 e o1 hs (hc e (by simp)).1 (hc e (by simp)).2 h1
        have hb := ih s1 o2 ha.1 (fun e he => hc e (by simp [he])) h2
        refine ⟨hb.1, fun o ho => ?_⟩
        rcases List.mem_append.1 ho with ho | ho
        · exact ha.2 o ho
        · exact hb.2 o ho

/-- **C207 is violated**: with data waiting, the user switches reading on and
off again before the deferred operation runs, and on again later.  `in_read`
was set by the first switch (`gensio_stdio.c:529`) and only
`stdion_finish_read` sets it back, which the deferred operation does not call
when reading is off (`:445-449`).  From then on no callback ever comes: the
byte that waits is never delivered and nothing is read. -/
theorem C207_asleep_violated :
    ∃ s os, init.run [.open 0, .run, .retOp 0 0, .enable true, .readReady 0 [65, 66],
        .enable false, .retFd 0 1, .enable true, .enable false, .run, .enable true] = some (s, os) ∧
      s.renab = true ∧ s.pend = [66] ∧ s.llErr = 0 ∧
      ∀ es s' os', (∀ e ∈ es, (∀ d, e ≠ Ev.close d) ∧ e ≠ .free) → s.run es = some (s', os') →
        ∀ o ∈ os', ∃ x, o = .ret x := by
  refine ⟨_, _, rfl, by decide, by decide, by decide, ?_⟩
  intro es s' os' hc h
  exact (asleep_run es _ s' os' (by unfold Asleep; decide) hc h).2

/-- A user that is more careful: its read callbacks do not fail, it does not
switch reading off while the deferred operation is due, and it opens a channel
again only if no data waits. -/
def Careful (s : S) : Ev → Prop
  | .enable b => b = false → s.defRead = false
  | .retFd e _ => e = 0
  | .retOp e _ => e = 0
  | .open _ => s.pend = []
  | _ => True

instance (s : S) (e : Ev) : Decidable (Careful s e) := by
  cases e <;> unfold Careful <;> infer_instance

/-- A run of a careful user. -/
inductive RunsC : S → List Ev → S → Prop
  | nil (s : S) : RunsC s [] s
  | cons {s : S} {e : Ev} {s1 : S} {os : List Out} {es : List Ev} {s2 : S} :
      Polite s e → Careful s e → s.step e = some (s1, os) → RunsC s1 es s2 → RunsC s (e :: es) s2

structure Live (s : S) : Prop where
  ir : s.inRead = true → s.fd ≠ none ∨ s.reading ∨ s.defRead = true
  mv : s.closed = false → s.renab = true → s.llErr = 0 →
    s.fd ≠ none ∨ s.reading ∨ s.defRead = true ∨ s.inOpen = true ∨ (s.rh = true ∧ s.pend = [])
  rd : s.reading → s.inRead = true ∧ s.defRead = false
  df : s.defRead = true → s.pend ≠ [] ∧ s.renab = true ∧ s.inRead = true
  op : s.inOpen = true → s.pend = [] ∧ s.inRead = false ∧ s.rh = false ∧ s.fd = none

theorem live_init : Live init := by
  constructor <;> simp [init, S.reading]

/-- The deferred operation between its parts. -/
structure LMid (s : S) : Prop where
  op : s.op = none
  opn : s.inOpen = false
  gone : s.gone = false
  dc : s.defClose = true → s.closed = true
  ir : s.inRead = true → s.fd ≠ none
  mv : s.closed = false → s.renab = true → s.llErr = 0 → s.fd ≠ none ∨ (s.rh = true ∧ s.pend = [])
  df : s.defRead = false

theorem opTail_live (s s' : S) (os : List Out) (hm : LMid s) (h : s.opTail = some (s', os)) :
    Live s' := by
  obtain ⟨m1, m2, m3, m4, m5, m6, m7⟩ := hm
  cases hd : s.defClose
  · simp only [S.opTail, hd, Bool.false_eq_true, if_false, m2, m7, Option.some.injEq, Prod.mk.injEq] at h
    obtain ⟨rfl, rfl⟩ := h
    constructor <;> grind [S.reading]
  · simp only [S.opTail, hd, if_true] at h
    split at h
    · simp at h
    · rename_i s1 h1
      split at h1
      · simp only [Option.some.injEq] at h1
        subst h1
        simp only [m2, m7, Bool.false_eq_true, if_false, Option.some.injEq, Prod.mk.injEq] at h
        obtain ⟨rfl, rfl⟩ := h
        constructor <;> grind [S.reading]
      · simp at h1

theorem start_live (s : S) (h : s.ready = true) (hin : s.inRead = true) (hd : s.defRead = false)
    (ho : s.inOpen = false) : Live { s.call.1 with op := some (.reading s.call.2.1) } := by
  rcases call_ready s h with ⟨a, b, c, d⟩ | ⟨a, b, c, d, e⟩
  · rw [c]; constructor <;> simp_all [S.reading]
  · rw [c]; constructor <;> simp_all [S.reading]

theorem opWhile_live (s s' : S) (os : List Out) (hg : s.gone = false)
    (hr : s.ready = true → s.inRead = true ∧ s.defRead = false ∧ s.inOpen = false)
    (hn : s.ready = false → LMid s) (h : s.opWhile = some (s', os)) : Live s' := by
  simp only [S.opWhile, hg, Bool.not_false, Bool.and_true] at h
  split at h
  · rename_i h1
    simp only [Option.some.injEq, Prod.mk.injEq] at h
    obtain ⟨rfl, rfl⟩ := h
    exact start_live s h1 (hr h1).1 (hr h1).2.1 (hr h1).2.2
  · rename_i h1
    exact opTail_live s s' os (hn (by simpa using h1)) h

theorem fdLoop_live (s s' : S) (os : List Out) (hi : s.iod = true) (hin : s.inRead = true)
    (hd : s.defRead = false) (hr : ¬s.reading) (ho : s.inOpen = false)
    (h : s.fdLoop = (s', os)) : Live s' := by
  simp only [S.reading] at hr
  simp only [S.fdLoop] at h
  split at h
  · rename_i h1
    simp only [Prod.mk.injEq] at h
    obtain ⟨rfl, rfl⟩ := h
    rcases call_ready s h1 with ⟨a, b, c, d⟩ | ⟨a, b, c, d, e⟩
    · rw [c]; constructor <;> simp_all [S.reading]
    · rw [c]; constructor <;> simp_all [S.reading]
  · rename_i h1
    rw [ready_iff] at h1
    simp only [S.finish, hi, if_true, Prod.mk.injEq] at h
    constructor <;> grind [S.reading]

theorem step_live (s s' : S) (e : Ev) (os : List Out) (hi : Inv s) (hl : Live s) (hp : Polite s e)
    (hc : Careful s e) (h : s.step e = some (s', os)) : Live s' := by
  obtain ⟨i1, i2, i3, i4, i5, i6, i7, i8, i9, i10, i11, i12, i13, i14⟩ := hi
  obtain ⟨l1, l2, l3, l4, l5⟩ := hl
  cases e <;> simp only [S.step, Polite, Careful, S.reading] at *
  case «open» e =>
    simp only [S.openCall, S.startOp] at h
    constructor <;> grind [S.reading]
  case close e =>
    simp only [S.closeCall, S.iClose, S.startOp] at h
    constructor <;> grind [S.reading]
  case free =>
    simp only [S.freeCall, S.iClose, S.startOp] at h
    constructor <;> grind [S.reading]
  case enable b =>
    simp only [S.enableCall, S.startOp, Option.some.injEq, Prod.mk.injEq] at h
    obtain ⟨h, -⟩ := h
    split at h
    · subst h; constructor <;> assumption
    · split at h
      · subst h; constructor <;> grind [S.reading]
      · split at h
        · subst h; constructor <;> grind [S.reading]
        · split at h
          · subst h; constructor <;> grind [S.reading]
          · split at h
            · subst h; constructor <;> grind [S.reading]
            · subst h; constructor <;> grind [S.reading]
  case write e =>
    simp only [S.writeCall] at h
    constructor <;> grind [S.reading]
  case writeReady e =>
    simp only [S.writeReady] at h
    constructor <;> grind [S.reading]
  case readReady e b =>
    split at h
    · rename_i hcd
      simp only [Bool.and_eq_true, Option.isNone_iff_eq_none, Bool.not_eq_true'] at hcd
      simp only [S.readReady] at h
      split at h
      · rename_i hn
        simp only [Option.some.injEq, Prod.mk.injEq] at h
        obtain ⟨rfl, rfl⟩ := h
        simp only [Bool.or_eq_true, Bool.not_eq_true', List.isEmpty_eq_false_iff] at hn
        constructor <;> grind [S.reading]
      · rename_i hn
        simp only [Bool.or_eq_true, Bool.not_eq_true', not_or, Bool.not_eq_true, Bool.not_eq_false] at hn
        split at h
        · constructor <;> grind [S.reading]
        · have hnr : ¬∃ c, s.op = some (Op.reading c) := by
            intro hr
            have := l3 hr
            grind
          have hd : s.defRead = false := by
            cases hd : s.defRead
            · rfl
            · have := l4 hd
              grind
          have ho : s.inOpen = false := by grind
          split at h
          · simp only [Option.some.injEq] at h
            exact fdLoop_live { s with rh := false, inRead := true, llErr := e } s' os hcd.1.1.2 rfl hd hnr ho h
          · simp only [Option.some.injEq, Prod.mk.injEq] at h
            exact fdLoop_live { s with rh := false, inRead := true, pend := b } s' _ hcd.1.1.2 rfl hd hnr ho (Prod.ext h.1 rfl)
    · constructor <;> grind [S.reading]
  case retFd e c =>
    subst hc
    cases hf : s.fd with
    | none => simp only [hf] at h; constructor <;> grind [S.reading]
    | some c' =>
      simp only [hf] at h
      have hf' := i1 (by simp [hf])
      have ho : s.inOpen = false := by grind
      cases c' <;> simp only [S.back, ne_eq, not_true_eq_false, if_false, Option.some.injEq] at h
      · exact fdLoop_live { s with pend := s.pend.drop c } s' os hf'.2.2.2 hf'.1 hf'.2.1 hf'.2.2.1 ho h
      · exact fdLoop_live _ s' os hf'.2.2.2 hf'.1 hf'.2.1 hf'.2.2.1 ho h
  case retOp e c =>
    subst hc
    rcases hop : s.op with _ | (_ | c')
    · simp only [hop] at h; constructor <;> grind [S.reading]
    · simp only [hop] at h
      have hino := i11 hop
      have h12 := i12 hino
      have h5 := l5 hino
      have hdr : s.defRead = false := by
        cases hd : s.defRead
        · rfl
        · exact absurd h5.1 (l4 hd).1
      rw [if_pos h12.1] at h
      simp only [S.opRead, hdr, Bool.false_eq_true, if_false] at h
      refine opTail_live _ s' os ?_ h
      constructor <;> grind
    · have hrd := i3 ⟨c', hop⟩
      have h3 := l3 ⟨c', hop⟩
      have hg : s.gone = false := by
        have := i10 (by simp [hop])
        grind
      simp only [hop] at h
      have hgen : ∀ p : List UInt8, (if S.ready { s with op := none, pend := p } = true then
          some ({ (S.call { s with op := none, pend := p }).1 with op := some (Op.reading (S.call { s with op := none, pend := p }).2.1) },
            [(S.call { s with op := none, pend := p }).2.2])
          else S.opWhile (S.finish { s with op := none, pend := p })) = some (s', os) → Live s' := by
        intro p h
        split at h
        · rename_i hrdy
          simp only [Option.some.injEq, Prod.mk.injEq] at h
          obtain ⟨rfl, rfl⟩ := h
          exact start_live { s with op := none, pend := p } hrdy h3.1 h3.2 hrd.2.1
        · rename_i hrdy
          have hfr : S.ready (S.finish { s with op := none, pend := p }) = false := by
            simp only [S.ready, S.finish] at hrdy ⊢
            grind
          refine opWhile_live _ s' os ?_ ?_ ?_ h
          · simp only [S.finish]; grind
          · rw [hfr]; simp
          · intro _
            rw [ready_iff] at hrdy
            simp only [S.finish, hrd.2.2.2.2, if_true]
            constructor <;> grind
      cases c' <;> simp only [S.back, ne_eq, not_true_eq_false, if_false] at h
      · exact hgen (s.pend.drop c) h
      · exact hgen s.pend h
  case run =>
    split at h
    · rename_i hcd
      simp only [Bool.and_eq_true, Option.isNone_iff_eq_none] at hcd
      have hg : s.gone = false := by grind
      split at h
      · constructor <;> grind [S.reading]
      · simp only [S.opRead] at h
        split at h
        · rename_i hd
          have h4 := l4 hd
          have hrdy : S.ready { s with defRead := false } = true := by
            rw [ready_iff]; exact ⟨.inl h4.1, h4.2.1⟩
          refine opWhile_live { s with defRead := false } s' os hg ?_ ?_ h
          · intro _; exact ⟨h4.2.2, rfl, by grind⟩
          · rw [hrdy]; simp
        · refine opTail_live s s' os ?_ h
          constructor <;> grind
    · constructor <;> grind [S.reading]
  case cleared =>
    split at h
    · rename_i hcd
      simp only [Bool.and_eq_true, Option.isNone_iff_eq_none] at hcd
      have h4 := i4 hcd.1
      simp only [S.clearedEv, h4.2.1, if_true] at h
      constructor <;> grind [S.reading]
    · constructor <;> grind [S.reading]

theorem runsC_both {s s' : S} {es : List Ev} (hr : RunsC s es s') (hi : Inv s) (hl : Live s) :
    Inv s' ∧ Live s' := by
  induction hr with
  | nil s => exact ⟨hi, hl⟩
  | cons hp hc h _ ih => exact ih (step_inv _ _ _ _ hi hp h) (step_live _ _ _ _ hi hl hp hc h)

/-- **C207, partial**: for a careful user, while the channel is open, reading
is on and there is no error, reading goes on: a callback runs, or the deferred
operation is due, or the handler of the descriptor is on and nothing waits, so
that it will read.  What is missing: reading switched off while the deferred
operation is due, see `C207_asleep_violated`, failing callbacks, errors
(`C204_silent_violated`) and data left over by the last session
(`C205_blocked_violated`). -/
theorem C207_moves_partial {s : S} {es : List Ev} (hr : RunsC init es s)
    (hc : s.closed = false) (hen : s.renab = true) (he : s.llErr = 0) :
    s.fd ≠ none ∨ s.opPend = true ∨
      (s.rh = true ∧ s.pend = [] ∧ s.inRead = false ∧ s.iod = true ∧ s.clearing = false) := by
  obtain ⟨hi, hl⟩ := runsC_both hr inv_init live_init
  have h1 := hl.mv hc hen he
  have h2 := hl.ir
  have h3 := hi.op
  have h4 := hi.pendOp
  have h5 := hi.inop
  have h6 := hi.up hc
  simp only [S.reading] at *
  grind

/-! ## Examples -/

/-- Data in two pieces, then the end of the program, then a close. -/
example : ∃ s, init.run [.open 0, .run, .retOp 0 0, .enable true,
    .readReady 0 [1, 2, 3], .retFd 0 2, .retFd 0 1, .readReady 6 [], .retFd 0 0,
    .close true, .run, .cleared] =
    some (s, [.ret 0, .opened, .got [1, 2, 3], .data [1, 2, 3], .data [3], .err 6, .ret 0, .closed]) :=
  ⟨_, rfl⟩

/-- Data that waits is delivered by the deferred operation when reading is
switched on again. -/
example : ∃ s, init.run [.open 0, .run, .retOp 0 0, .enable true,
    .readReady 0 [1, 2, 3], .enable false, .retFd 0 2, .enable true, .run, .retOp 0 1] =
    some (s, [.ret 0, .opened, .got [1, 2, 3], .data [1, 2, 3], .data [3]]) ∧ s.pend = [] ∧ s.rh = true :=
  ⟨_, rfl, by decide, by decide⟩

/-- The runs of `C203_stream` are not trivial. -/
example : ∃ s n, Runs init {} [.open 0, .run, .retOp 0 0, .enable true, .readReady 0 [1, 2, 3],
    .retFd 0 2] s n ∧ n.used = [1, 2] ∧ s.pend = [3] ∧ n.offFd = some [3] := by
  refine ⟨_, _, .cons (by decide) rfl (.cons (by decide) rfl (.cons (by decide) rfl
    (.cons (by decide) rfl (.cons (by decide) rfl (.cons (by decide) rfl (.nil _ _)))))), ?_, ?_, ?_⟩ <;>
  decide

/-- A careful user that switches reading off and on; the deferred operation is
due for the byte that waits. -/
example : ∃ s, RunsC init [.open 0, .run, .retOp 0 0, .enable true, .readReady 0 [1, 2, 3],
    .enable false, .retFd 0 2, .enable true] s ∧ s.pend = [3] ∧ s.opPend = true ∧ s.renab = true := by
  refine ⟨_, .cons (by decide) (by decide) rfl (.cons (by decide) (by decide) rfl
    (.cons (by decide) (by decide) rfl (.cons (by decide) (by decide) rfl
    (.cons (by decide) (by decide) rfl (.cons (by decide) (by decide) rfl
    (.cons (by decide) (by decide) rfl (.cons (by decide) (by decide) rfl (.nil _)))))))), ?_, ?_, ?_⟩ <;>
  decide

end Gensio.Stdio
