import Verif.Model.Trace
/-!
# C195–C198: the trace filter and the hex dump
-/
namespace Gensio.Trace

/-! ## The dump (C195) -/

/-- The bytes in lines of 16. -/
def rows (l : List UInt8) : List (List UInt8) :=
  if l = [] then [] else l.take 16 :: rows (l.drop 16)
termination_by l.length
decreasing_by cases l <;> simp_all <;> omega

/-- One line: the position, the bytes in hex, room for the missing ones, and the bytes as text. -/
def lineText (indent k : Nat) (l : List UInt8) : List UInt8 :=
  List.replicate indent 32 ++ hex4 (16 * k % 2 ^ 32) ++ [58] ++ l.flatMap hexByte ++ List.replicate (3 * (16 - l.length)) 32 ++ [32, 32] ++
    l.map shown ++ [10]

/-- All lines from line `k` on. -/
def linesText (indent : Nat) : Nat → List (List UInt8) → List UInt8
  | _, [] => []
  | k, l :: ls => lineText indent k l ++ linesText indent (k + 1) ls

/-- What was written of the line that is not full. -/
def startText (indent k : Nat) (p : List UInt8) : List UInt8 :=
  if p = [] then [] else List.replicate indent 32 ++ hex4 (16 * k % 2 ^ 32) ++ [58] ++ p.flatMap hexByte

theorem rows_nil : rows [] = [] := by rw [rows, if_pos rfl]

theorem rows_short {p : List UInt8} (h : p ≠ []) (hl : p.length ≤ 16) : rows p = [p] := by
  rw [rows, if_neg h, List.drop_eq_nil_of_le hl, rows_nil, List.take_of_length_le hl]

theorem rows_full {p xs : List UInt8} (hl : p.length = 16) : rows (p ++ xs) = p :: rows xs := by
  have hne : p ++ xs ≠ [] := by
    intro h
    have := congrArg List.length h
    simp [hl] at this
  rw [rows, if_neg hne]
  rw [List.take_append_of_le_length (by omega), List.take_of_length_le (by omega), List.drop_append_of_le_length (by omega),
    List.drop_eq_nil_of_le (by omega), List.nil_append]

theorem set_take {d : List UInt8} {n : Nat} {b : UInt8} (h : n < d.length) : (d.set n b).take (n + 1) = d.take n ++ [b] := by
  rw [List.take_succ]
  simp [h, List.take_set_of_le]

theorem buf_spec (xs : List UInt8) : ∀ (h : Dump) (k : Nat) (p : List UInt8), h.column = p.length → p.length < 16 → h.data.length = 16 →
    h.data.take p.length = p → h.pos = (16 * k + p.length) % 2 ^ 32 →
    ∃ o h', h.buf xs = some (o, h') ∧ startText h.indent k p ++ o ++ h'.finish = linesText h.indent k (rows (p ++ xs)) := by
  induction xs with
  | nil =>
    intro h k p hc hp hd ht hq
    refine ⟨[], h, rfl, ?_⟩
    unfold Dump.finish startText
    by_cases hpe : p = []
    · subst hpe
      simp [hc, rows_nil, linesText]
    · have : p.length ≠ 0 := by simpa using hpe
      rw [if_neg hpe, if_neg (by omega), hc, ht, List.append_nil, List.append_nil, rows_short hpe (by omega)]
      simp [linesText, lineText, List.append_assoc]
  | cons b xs ih =>
    intro h k p hc hp hd ht hq
    have hset : (h.data.set h.column b).take (p.length + 1) = p ++ [b] := by
      rw [hc, set_take (by omega), ht]
    have hfront : startText h.indent k p ++ ((if h.column = 0 then List.replicate h.indent 32 ++ hex4 h.pos ++ [58] else []) ++ hexByte b) =
        startText h.indent k (p ++ [b]) := by
      unfold startText
      by_cases hpe : p = []
      · subst hpe
        have : h.pos = 16 * k % 2 ^ 32 := by simpa using hq
        have h0 : h.column = 0 := by simpa using hc
        simp [h0, this]
      · have : p.length ≠ 0 := by simpa using hpe
        rw [if_neg hpe, if_neg (by omega), if_neg (by simp)]
        simp [List.append_assoc]
    unfold Dump.buf
    simp only
    rw [if_neg (by omega)]
    by_cases h16 : p.length + 1 = 16
    · rw [if_pos (by omega)]
      obtain ⟨o, h', e, f⟩ := ih { column := 0, pos := (h.pos + 1) % 2 ^ 32, indent := h.indent, data := h.data.set h.column b } (k + 1) [] rfl
        (by simp) (by simpa using hd) (by simp) (by simp only [List.length_nil]; omega)
      refine ⟨_, h', by rw [e], ?_⟩
      have hs16 : (h.data.set h.column b).take 16 = p ++ [b] := by rw [← h16]; exact hset
      rw [hs16]
      have hr : rows (p ++ b :: xs) = (p ++ [b]) :: rows xs := by
        have := rows_full (p := p ++ [b]) (xs := xs) (by simp; omega)
        simpa using this
      rw [hr, linesText]
      have f' : o ++ h'.finish = linesText h.indent (k + 1) (rows xs) := by simpa [startText] using f
      rw [← f']
      have hl : lineText h.indent k (p ++ [b]) = startText h.indent k (p ++ [b]) ++ ([32, 32] ++ (p ++ [b]).map shown ++ [10]) := by
        unfold lineText startText
        rw [if_neg (by simp)]
        have : 16 - (p ++ [b]).length = 0 := by simp; omega
        rw [this]
        simp [List.append_assoc]
      rw [hl, ← hfront]
      simp [List.append_assoc]
    · rw [if_neg (by omega)]
      obtain ⟨o, h', e, f⟩ := ih { column := h.column + 1, pos := (h.pos + 1) % 2 ^ 32, indent := h.indent, data := h.data.set h.column b } k (p ++ [b])
        (by simp [hc]) (by simp; omega) (by simpa using hd) (by simpa using hset) (by simp; omega)
      refine ⟨_, h', by rw [e], ?_⟩
      have f' : startText h.indent k (p ++ [b]) ++ o ++ h'.finish = linesText h.indent k (rows (p ++ b :: xs)) := by simpa using f
      rw [← f', ← hfront]
      simp [List.append_assoc]

theorem buf_append (xs ys : List UInt8) : ∀ h : Dump, h.buf (xs ++ ys) =
    (match h.buf xs with
     | none => none
     | some (o, h') => match h'.buf ys with
       | none => none
       | some (o2, h2) => some (o ++ o2, h2)) := by
  induction xs with
  | nil =>
    intro h
    simp only [List.nil_append, Dump.buf]
    cases h.buf ys <;> simp
  | cons b xs ih =>
    intro h
    simp only [List.cons_append, Dump.buf]
    by_cases hc : h.column ≥ 16
    · rw [if_pos hc, if_pos hc]
    rw [if_neg hc, if_neg hc]
    by_cases h16 : h.column + 1 = 16
    · rw [if_pos h16, if_pos h16, ih]
      cases Dump.buf { h with column := 0, pos := (h.pos + 1) % 2 ^ 32, data := h.data.set h.column b } xs with
      | none => rfl
      | some r =>
        simp only
        cases Dump.buf r.2 ys <;> simp [List.append_assoc]
    · rw [if_neg h16, if_neg h16, ih]
      cases Dump.buf { h with column := h.column + 1, pos := (h.pos + 1) % 2 ^ 32, data := h.data.set h.column b } xs with
      | none => rfl
      | some r =>
        simp only
        cases Dump.buf r.2 ys <;> simp [List.append_assoc]

/-- A dump as the users of it make it: `init`, any number of `buf`, `finish`. -/
def dumpAll (h : Dump) (indent : Nat) : List (List UInt8) → Option (List UInt8)
  | sg => go (h.init indent) sg
where
  go (h : Dump) : List (List UInt8) → Option (List UInt8)
  | [] => some h.finish
  | b :: bs =>
    match h.buf b with
    | none => none
    | some (o, h') => (go h' bs).map (o ++ ·)

theorem go_spec (sg : List (List UInt8)) : ∀ h : Dump, dumpAll.go h sg = (h.buf sg.flatten).map (fun r => r.1 ++ r.2.finish) := by
  induction sg with
  | nil => intro h; simp [dumpAll.go, Dump.buf]
  | cons b bs ih =>
    intro h
    rw [List.flatten_cons, buf_append, dumpAll.go]
    cases h.buf b with
    | none => rfl
    | some r =>
      simp only
      rw [ih]
      cases Dump.buf r.2 bs.flatten <;> simp [List.append_assoc]

/-- **C195, memory and text.**  For all data in any pieces the dump stays in its memory, and its text is the lines of 16 bytes of the whole
data; how the data was cut does not matter. -/
theorem C195_text (h : Dump) (hd : h.data.length = 16) (indent : Nat) (sg : List (List UInt8)) :
    dumpAll h indent sg = some (linesText indent 0 (rows sg.flatten)) := by
  obtain ⟨o, h', e, f⟩ := buf_spec sg.flatten (h.init indent) 0 [] rfl (by simp) hd (by simp) rfl
  have : dumpAll h indent sg = dumpAll.go (h.init indent) sg := rfl
  rw [this, go_spec, e]
  have f' : o ++ h'.finish = linesText indent 0 (rows sg.flatten) := by simpa [startText, Dump.init] using f
  simp [f']

/-- The value of a hex digit. -/
def hexVal (d : UInt8) : Option Nat :=
  if 48 ≤ d ∧ d ≤ 57 then some (d.toNat - 48) else if 97 ≤ d ∧ d ≤ 102 then some (d.toNat - 87) else none

/-- A reader of ` xx xx …`, up to the first two blanks. -/
def readHex : List UInt8 → List UInt8 × List UInt8
  | a :: b :: c :: r =>
    if a = 32 then
      match hexVal b, hexVal c with
      | some x, some y => let q := readHex r; (UInt8.ofNat (16 * x + y) :: q.1, q.2)
      | _, _ => ([], a :: b :: c :: r)
    else ([], a :: b :: c :: r)
  | r => ([], r)

/-- A reader of a dump: in each line the bytes in hex after the colon. -/
def readBack : Nat → List UInt8 → List UInt8
  | 0, _ => []
  | n + 1, t =>
    if t = [] then []
    else
      let q := readHex ((t.dropWhile (· ≠ 58)).drop 1)
      q.1 ++ readBack n ((q.2.dropWhile (· ≠ 10)).drop 1)

theorem hexVal_hexDig : ∀ n, n < 16 → hexVal (hexDig n) = some n := by decide

theorem hexDig_colon : ∀ n, n < 16 → hexDig n ≠ 58 := by decide

theorem shown_nl (b : UInt8) : shown b ≠ 10 := by
  unfold shown
  split
  · intro h; subst h; rename_i h; exact absurd h.1 (by decide)
  · decide

theorem readHex_bytes (l r : List UInt8) : readHex (l.flatMap hexByte ++ (32 :: 32 :: r)) = (l, 32 :: 32 :: r) := by
  induction l with
  | nil =>
    cases r with
    | nil => rfl
    | cons c r => simp only [List.flatMap_nil, List.nil_append, readHex]; rfl
  | cons b l ih =>
    have hb := b.toNat_lt
    have h1 := hexVal_hexDig (b.toNat / 16) (by omega)
    have h2 := hexVal_hexDig (b.toNat % 16) (by omega)
    rw [List.flatMap_cons]
    simp only [hexByte, List.cons_append, List.nil_append, readHex, h1, h2, if_true]
    have e : 16 * (b.toNat / 16) + b.toNat % 16 = b.toNat := by omega
    have ih' := ih
    rw [ih', e]
    simp

theorem dropWhile_all {p : UInt8 → Bool} {l r : List UInt8} (h : ∀ x ∈ l, p x = true) (a : UInt8) (ha : p a = false) :
    (l ++ a :: r).dropWhile p = a :: r := by
  induction l with
  | nil => simp [List.dropWhile, ha]
  | cons b l ih =>
    have hb := h b (by simp)
    simp [List.dropWhile, hb, ih (fun x hx => h x (by simp [hx]))]

theorem hex4_colon {n : Nat} (hn : n < 2 ^ 32) : ∀ x ∈ hex4 n, x ≠ 58 := by
  intro x hx
  unfold hex4 at hx
  simp only [List.mem_append] at hx
  have hs : ∀ (c : Prop) [Decidable c] (m : Nat), m < 16 → x ∈ (if c then [hexDig m] else []) → x ≠ 58 := by
    intro c _ m hm hx
    split at hx
    · rw [List.mem_singleton] at hx; subst hx; exact hexDig_colon m hm
    · simp at hx
  rcases hx with (((hx | hx) | hx) | hx) | hx
  · exact hs _ _ (by omega) hx
  · exact hs _ _ (by omega) hx
  · exact hs _ _ (by omega) hx
  · exact hs _ _ (by omega) hx
  · simp only [List.mem_cons, List.not_mem_nil, or_false] at hx
    rcases hx with h | h | h | h <;> subst h <;> exact hexDig_colon _ (by omega)

theorem replicate_blank (n : Nat) (r : List UInt8) : ∃ r', List.replicate n 32 ++ ([32, 32] ++ r) = 32 :: 32 :: r' ∧
    ∀ q, (∀ x ∈ r, x ≠ 10) → r' ++ 10 :: q = r' ++ 10 :: q ∧ ∀ x ∈ r', x ≠ 10 := by
  induction n with
  | zero => exact ⟨r, rfl, fun q h => ⟨rfl, h⟩⟩
  | succ n ih =>
    obtain ⟨r', e, f⟩ := ih
    refine ⟨32 :: r', by rw [List.replicate_succ, List.cons_append, e], fun q h => ⟨rfl, ?_⟩⟩
    intro x hx
    rcases List.mem_cons.1 hx with h0 | h0
    · subst h0; decide
    · exact (f q h).2 x h0

theorem readBack_line (n indent k : Nat) (l r : List UInt8) : readBack (n + 1) (lineText indent k l ++ r) = l ++ readBack n r := by
  rw [readBack]
  obtain ⟨s', es, hs⟩ := replicate_blank (3 * (16 - l.length)) (l.map shown)
  have hs' := (hs [] (by intro x hx; simp only [List.mem_map] at hx; obtain ⟨b, _, rfl⟩ := hx; exact shown_nl b)).2
  have e1 : lineText indent k l ++ r = (List.replicate indent 32 ++ hex4 (16 * k % 2 ^ 32)) ++ 58 ::
      (l.flatMap hexByte ++ (32 :: 32 :: (s' ++ 10 :: r))) := by
    unfold lineText
    have : List.replicate (3 * (16 - l.length)) 32 ++ ([32, 32] ++ (l.map shown ++ (10 :: r))) = 32 :: 32 :: (s' ++ 10 :: r) := by
      have := congrArg (· ++ (10 :: r)) es
      simpa [List.append_assoc] using this
    simp only [List.append_assoc, List.cons_append, List.nil_append] at this ⊢
    rw [this]
  rw [e1, if_neg (by simp)]
  have hd : ((List.replicate indent 32 ++ hex4 (16 * k % 2 ^ 32)) ++ 58 ::
      (l.flatMap hexByte ++ (32 :: 32 :: (s' ++ 10 :: r)))).dropWhile (· ≠ 58) = 58 :: (l.flatMap hexByte ++ (32 :: 32 :: (s' ++ 10 :: r))) := by
    apply dropWhile_all
    · intro x hx
      rcases List.mem_append.1 hx with h | h
      · have := List.eq_of_mem_replicate h
        subst this; decide
      · have := hex4_colon (Nat.mod_lt _ (by decide)) x h
        simpa using this
    · decide
  simp only [hd, List.drop_succ_cons, List.drop_zero, readHex_bytes]
  have h2 : (32 :: 32 :: (s' ++ 10 :: r)).dropWhile (· ≠ 10) = 10 :: r := by
    have := dropWhile_all (p := (· ≠ 10)) (l := 32 :: 32 :: s') (r := r) (by
      intro x hx
      rcases List.mem_cons.1 hx with h | hx
      · subst h; decide
      rcases List.mem_cons.1 hx with h | hx
      · subst h; decide
      · simpa using hs' x hx) 10 (by decide)
    simpa using this
  rw [h2]
  rfl

theorem readBack_lines (indent : Nat) (ls : List (List UInt8)) : ∀ k n, ls.length ≤ n → readBack n (linesText indent k ls) = ls.flatten := by
  induction ls with
  | nil => intro k n _; cases n <;> simp [linesText, readBack]
  | cons l ls ih =>
    intro k n hn
    cases n with
    | zero => simp at hn
    | succ n =>
      rw [linesText, readBack_line, ih _ _ (by simpa using hn), List.flatten_cons]

theorem rows_flatten (l : List UInt8) : (rows l).flatten = l := by
  rw [rows]
  split
  · rename_i h; simp [h]
  · rename_i h
    rw [List.flatten_cons, rows_flatten (l.drop 16), List.take_append_drop]
termination_by l.length
decreasing_by cases l <;> simp_all <;> omega

theorem rows_length (l : List UInt8) : (rows l).length ≤ l.length := by
  rw [rows]
  split
  · simp
  · rename_i h
    have := rows_length (l.drop 16)
    have h0 : l.length ≠ 0 := by simpa using h
    simp only [List.length_cons, List.length_drop] at *
    omega
termination_by l.length
decreasing_by cases l <;> simp_all <;> omega

/-- **C195, nothing lost.**  The bytes can be read back from the text. -/
theorem C195_back (h : Dump) (hd : h.data.length = 16) (indent : Nat) (sg : List (List UInt8)) :
    ∃ t, dumpAll h indent sg = some t ∧ readBack sg.flatten.length t = sg.flatten := by
  refine ⟨_, C195_text h hd indent sg, ?_⟩
  rw [readBack_lines _ _ _ _ (rows_length _), rows_flatten]

/-- The value of hex digits. -/
def hexNum : List UInt8 → Option Nat
  | l => l.foldl (fun a d => match a, hexVal d with | some x, some y => some (16 * x + y) | _, _ => none) (some 0)

/-- **C195, the positions.**  The number in front of a line is its position, with at least four digits and no more than are needed. -/
theorem C195_pos (n : Nat) (hn : n < 2 ^ 32) : hexNum (hex4 n) = some n ∧ 4 ≤ (hex4 n).length ∧
    (4 < (hex4 n).length → 16 ^ ((hex4 n).length - 1) ≤ n) := by
  have hv := hexVal_hexDig
  have h0 := hv (n % 16) (by omega)
  have h1 := hv (n / 16 % 16) (by omega)
  have h2 := hv (n / 256 % 16) (by omega)
  have h3 := hv (n / 4096 % 16) (by omega)
  have h4 := hv (n / 16 ^ 4 % 16) (by omega)
  have h5 := hv (n / 16 ^ 5 % 16) (by omega)
  have h6 := hv (n / 16 ^ 6 % 16) (by omega)
  have h7 := hv (n / 16 ^ 7) (by omega)
  unfold hex4
  by_cases c7 : n ≥ 16 ^ 7
  · rw [if_pos c7, if_pos (by omega), if_pos (by omega), if_pos (by omega)]
    simp [hexNum, h0, h1, h2, h3, h4, h5, h6, h7]
    omega
  by_cases c6 : n ≥ 16 ^ 6
  · rw [if_neg c7, if_pos c6, if_pos (by omega), if_pos (by omega)]
    simp [hexNum, h0, h1, h2, h3, h4, h5, h6]
    omega
  by_cases c5 : n ≥ 16 ^ 5
  · rw [if_neg c7, if_neg c6, if_pos c5, if_pos (by omega)]
    simp [hexNum, h0, h1, h2, h3, h4, h5]
    omega
  by_cases c4 : n ≥ 16 ^ 4
  · rw [if_neg c7, if_neg c6, if_neg c5, if_pos c4]
    simp [hexNum, h0, h1, h2, h3, h4]
    omega
  · rw [if_neg c7, if_neg c6, if_neg c5, if_neg c4]
    simp [hexNum, h0, h1, h2, h3]
    omega

/-- **C195, the text of a line.**  A byte is shown as it is if it is printable ASCII (blank to tilde), and else as a point. -/
theorem C195_shown (b : UInt8) : shown b = if b.toNat ∈ List.range' 32 95 then b else 46 := by
  unfold shown
  by_cases h : 32 ≤ b ∧ b < 127
  · rw [if_pos h, if_pos]
    obtain ⟨h1, h2⟩ := h
    rw [UInt8.le_iff_toNat_le] at h1
    rw [UInt8.lt_iff_toNat_lt] at h2
    simp at h1 h2 ⊢
    omega
  · rw [if_neg h, if_neg]
    rw [UInt8.le_iff_toNat_le, UInt8.lt_iff_toNat_lt] at h
    simp at h ⊢
    omega

/-- 18 bytes in two pieces, with a line feed, a colon and a byte above 127. -/
example : dumpAll {} 1 [[72, 105, 10], [58, 200, 48, 49, 50, 51, 52, 53, 54, 55, 56, 57, 65, 66, 67]] =
    some ((" 0000: 48 69 0a 3a c8 30 31 32 33 34 35 36 37 38 39 41  Hi.:.0123456789A\n" ++
      " 0010: 42 43                                            BC\n").toList.map fun c => UInt8.ofNat c.toNat) := by decide +kernel

/-! ## What is traced (C196) -/

/-- What the documentation says shall be in the trace: data with the place and the time, or an error. -/
inductive Entry
  | data (t : T) (op : Op) (bytes : List UInt8)
  | err (t : T) (op : Op) (e : Nat)

/-- How an entry looks in the file. -/
def Entry.text (raw : Bool) (txt : Nat → List UInt8) : Entry → List UInt8
  | .data t op b => if raw then b else headLine t op b.length ++ linesText 1 0 (rows b)
  | .err t op e => if raw then [] else errLine t op txt e

/-- An entry for data, if there is any. -/
def some' (t : T) (op : Op) (b : List UInt8) : List Entry := if b = [] then [] else [.data t op b]

/-- What a call shall leave: before the handler all that is offered, after it what was taken or the error. -/
def Ev.entries (c : Cfg) : Ev → List Entry
  | .ulWrite e sg =>
    (if c.b4.w then some' e.t1 .b4Write sg.flatten else []) ++
    (if c.dir.w ∧ ¬c.block.w then (if e.err ≠ 0 then [.err e.t2 .write e.err] else some' e.t2 .write (sg.flatten.take e.count)) else [])
  | .llWrite e buf =>
    (if c.b4.r then some' e.t1 .b4Read buf else []) ++
    (if c.dir.r ∧ ¬c.block.r then (if e.err ≠ 0 then [.err e.t2 .read e.err] else some' e.t2 .read (buf.take e.count)) else [])
  | _ => []

/-- The handler takes no more than it was given, and the dump has 16 bytes. -/
def Ev.Fair : Ev → Prop
  | .ulWrite e sg => e.count ≤ sg.flatten.length ∧ e.h.data.length = 16
  | .llWrite e buf => e.count ≤ buf.length ∧ e.h.data.length = 16
  | _ => True

/-- A call that moves data. -/
def Ev.moves : Ev → Prop
  | .ulWrite .. | .llWrite .. => True
  | _ => False

theorem total_flatten (sg : List (List UInt8)) : total sg = sg.flatten.length := by
  simp [total, List.length_flatten]

theorem pieces_raw (sg : List (List UInt8)) : ∀ w h, pieces true sg w h = some (sg.flatten.take w, h) := by
  induction sg with
  | nil => intro w h; simp [pieces]
  | cons b bs ih =>
    intro w h
    unfold pieces
    by_cases hw : w = 0
    · simp [hw]
    rw [if_neg hw]
    simp only [if_true, ih]
    rw [List.flatten_cons, List.take_append]
    by_cases hb : b.length > w
    · rw [if_pos hb, show w - b.length = 0 by omega, show w - w = 0 by omega]
    · rw [if_neg hb, List.take_of_length_le (Nat.le_refl _), List.take_of_length_le (by omega : b.length ≤ w)]

theorem pieces_text (sg : List (List UInt8)) : ∀ w h, pieces false sg w h = Dump.buf h (sg.flatten.take w) := by
  induction sg with
  | nil => intro w h; simp [pieces, Dump.buf]
  | cons b bs ih =>
    intro w h
    unfold pieces
    by_cases hw : w = 0
    · simp [hw, Dump.buf]
    rw [if_neg hw]
    simp only [if_false, ih, Bool.false_eq_true]
    rw [List.flatten_cons, List.take_append, buf_append]
    by_cases hb : b.length > w
    · rw [if_pos hb, show w - b.length = 0 by omega, show w - w = 0 by omega]
      cases Dump.buf h (b.take w) <;> rfl
    · rw [if_neg hb, List.take_of_length_le (Nat.le_refl _), List.take_of_length_le (by omega : b.length ≤ w)]
      cases Dump.buf h b <;> rfl

theorem data_none {c : Cfg} {t : T} {txt : Nat → List UInt8} {h : Dump} {op : Op} {err w : Nat} {sg : List (List UInt8)} {s : S}
    (hs : s.tr = .none) : s.data c t txt h op err w sg = some s := by
  unfold S.data
  rw [if_pos hs]

theorem data_err {c : Cfg} {t : T} {txt : Nat → List UInt8} {h : Dump} {op : Op} {err w : Nat} {sg : List (List UInt8)} {s : S}
    (hs : s.tr ≠ .none) (he : err ≠ 0) :
    s.data c t txt h op err w sg = some { s with out := s.out ++ (Entry.err t op err).text c.raw txt } := by
  unfold S.data Entry.text
  rw [if_neg hs, if_pos he]
  cases c.raw <;> simp

theorem data_ok {c : Cfg} {t : T} {txt : Nat → List UInt8} {h : Dump} (hd : h.data.length = 16) {op : Op} {w : Nat} {sg : List (List UInt8)}
    {s : S} (hs : s.tr ≠ .none) (hw : w ≤ sg.flatten.length) :
    s.data c t txt h op 0 w sg = some { s with out := s.out ++ (some' t op (sg.flatten.take w)).flatMap (Entry.text c.raw txt) } := by
  unfold S.data some'
  rw [if_neg hs, if_neg (by simp)]
  by_cases h0 : w = 0
  · simp [h0]
  have hne : sg.flatten.take w ≠ [] := by
    intro h
    have := congrArg List.length h
    rw [List.length_take] at this
    simp only [List.length_nil] at this
    omega
  rw [if_pos (by omega), if_neg hne]
  have hl : (sg.flatten.take w).length = w := by rw [List.length_take]; omega
  cases hr : c.raw with
  | true =>
    rw [pieces_raw]
    simp [Entry.text, Dump.finish, Dump.init]
  | false =>
    rw [pieces_text]
    obtain ⟨o, h', e, f⟩ := buf_spec (sg.flatten.take w) (h.init 1) 0 [] rfl (by simp) hd (by simp) rfl
    have f' : o ++ h'.finish = linesText 1 0 (rows (sg.flatten.take w)) := by simpa [startText, Dump.init] using f
    rw [e]
    simp only [Entry.text, Bool.false_eq_true, if_false, List.flatMap_cons, List.flatMap_nil, List.append_nil, hl, ← f', List.append_assoc]

theorem step_open {c : Cfg} {txt : Nat → List UInt8} {s : S} {ev : Ev} (hs : s.tr ≠ .none) (hf : ev.Fair) (hm : ev.moves) :
    s.step c txt ev = some { s with out := s.out ++ (ev.entries c).flatMap (Entry.text c.raw txt) } := by
  cases ev with
  | connect => exact hm.elim
  | cleanup => exact hm.elim
  | ulWrite e sg =>
    obtain ⟨hc, hd⟩ := hf
    simp only [S.step, S.ulWrite, Ev.entries]
    have h1 : (if c.b4.w then s.data c e.t1 txt e.h .b4Write 0 (if c.b4.w then 0 + total sg else 0) sg else some s) =
        some { s with out := s.out ++ (if c.b4.w then some' e.t1 .b4Write sg.flatten else []).flatMap (Entry.text c.raw txt) } := by
      cases c.b4.w with
      | false => simp
      | true =>
        simp only [if_true, Nat.zero_add, total_flatten]
        rw [data_ok hd hs (Nat.le_refl _), List.take_of_length_le (Nat.le_refl _)]
    rw [h1]
    simp only
    cases hb : c.block.w with
    | true => simp
    | false =>
      cases hw : c.dir.w with
      | false => simp
      | true =>
        by_cases he : e.err = 0
        · rw [he]
          simp only [Bool.false_eq_true, if_false, if_true]
          rw [data_ok hd (by exact hs) hc]
          simp [List.append_assoc]
        · simp only [Bool.false_eq_true, if_false, if_true]
          rw [data_err (by exact hs) he]
          simp [he, List.append_assoc]
  | llWrite e buf =>
    obtain ⟨hc, hd⟩ := hf
    simp only [S.step, S.llWrite, Ev.entries]
    have h1 : (if c.b4.r then s.data c e.t1 txt e.h .b4Read 0 buf.length [buf] else some s) =
        some { s with out := s.out ++ (if c.b4.r then some' e.t1 .b4Read buf else []).flatMap (Entry.text c.raw txt) } := by
      cases c.b4.r with
      | false => simp
      | true =>
        simp only [if_true]
        rw [data_ok hd hs (by simp)]
        simp
    rw [h1]
    simp only
    cases hb : c.block.r with
    | true => simp
    | false =>
      cases hw : c.dir.r with
      | false => simp
      | true =>
        by_cases he : e.err = 0
        · rw [he]
          simp only [Bool.false_eq_true, if_false, if_true]
          rw [data_ok hd (by exact hs) (by simpa using hc)]
          simp [List.append_assoc]
        · simp only [Bool.false_eq_true, if_false, if_true]
          rw [data_err (by exact hs) he]
          simp [he, List.append_assoc]

theorem step_closed {c : Cfg} {txt : Nat → List UInt8} {s : S} {ev : Ev} (hs : s.tr = .none) (hm : ev.moves) : s.step c txt ev = some s := by
  cases ev with
  | connect => exact hm.elim
  | cleanup => exact hm.elim
  | ulWrite e sg =>
    simp only [S.step, S.ulWrite, data_none hs, ite_self]
    split <;> rfl
  | llWrite e sg =>
    simp only [S.step, S.llWrite, data_none hs, ite_self]
    split <;> rfl

/-- **C196.**  While the filter is open, for all sequences of writes and reads, the file gets the entries of the calls in their order and
nothing else. -/
theorem C196_trace (c : Cfg) (txt : Nat → List UInt8) (evs : List Ev) : ∀ s : S, s.tr ≠ .none → (∀ ev ∈ evs, ev.Fair ∧ ev.moves) →
    s.run c txt evs = some { s with out := s.out ++ (evs.flatMap (Ev.entries c)).flatMap (Entry.text c.raw txt) } := by
  induction evs with
  | nil => intro s _ _; simp [S.run]
  | cons ev evs ih =>
    intro s hs hf
    have h1 := hf ev (by simp)
    unfold S.run
    rw [step_open hs h1.1 h1.2]
    simp only
    rw [ih _ (by exact hs) (fun x hx => hf x (by simp [hx]))]
    simp [List.append_assoc]

/-- The bytes that crossed the filter and were asked for. -/
def Ev.crossed (c : Cfg) : Ev → List UInt8
  | .ulWrite e sg => if c.dir.w ∧ ¬c.block.w ∧ e.err = 0 then sg.flatten.take e.count else []
  | .llWrite e buf => if c.dir.r ∧ ¬c.block.r ∧ e.err = 0 then buf.take e.count else []
  | _ => []

/-- **C196, raw.**  A raw trace without `b4dir` is exactly the bytes that were taken. -/
theorem C196_raw (c : Cfg) (txt : Nat → List UInt8) (hr : c.raw = true) (hb : c.b4 = .none) (evs : List Ev) (s : S) (hs : s.tr ≠ .none)
    (hf : ∀ ev ∈ evs, ev.Fair ∧ ev.moves) : s.run c txt evs = some { s with out := s.out ++ evs.flatMap (Ev.crossed c) } := by
  rw [C196_trace c txt evs s hs hf]
  have hp : ∀ t op b, (some' t op b).flatMap (Entry.text true txt) = b := by
    intro t op b
    unfold some'
    split
    · rename_i h; simp [h]
    · simp [Entry.text]
  have : ∀ ev : Ev, (ev.entries c).flatMap (Entry.text c.raw txt) = ev.crossed c := by
    intro ev
    cases ev with
    | connect => rfl
    | cleanup => rfl
    | ulWrite e sg =>
      have h4 : c.b4.w = false := by rw [hb]; rfl
      simp only [Ev.entries, Ev.crossed, hr, h4]
      cases hd : c.dir.w <;> cases hk : c.block.w <;>
        by_cases he : e.err = 0 <;> simp [hp, he, Entry.text]
    | llWrite e buf =>
      have h4 : c.b4.r = false := by rw [hb]; rfl
      simp only [Ev.entries, Ev.crossed, hr, h4]
      cases hd : c.dir.r <;> cases hk : c.block.r <;>
        by_cases he : e.err = 0 <;> simp [hp, he, Entry.text]
  rw [List.flatMap_assoc]
  simp only [this]

/-- Without an open file nothing is written, and nothing else changes. -/
theorem C196_off (c : Cfg) (txt : Nat → List UInt8) (evs : List Ev) (s : S) (hs : s.tr = .none) (hf : ∀ ev ∈ evs, ev.moves) :
    s.run c txt evs = some s := by
  induction evs with
  | nil => rfl
  | cons ev evs ih =>
    unfold S.run
    rw [step_closed hs (hf ev (by simp))]
    exact ih (fun x hx => hf x (by simp [hx]))

/-- A write of two pieces of which three bytes are taken, and a read that fails. -/
example : ((S.mk .file [] 1 0).run { dir := .both, sink := .file } (fun _ => [79, 79])
    [.ulWrite { t1 := ⟨0, 0⟩, t2 := ⟨12, 3456789⟩, h := {}, count := 3 } [[72, 105], [33, 33]],
     .llWrite { t1 := ⟨0, 0⟩, t2 := ⟨13, 0⟩, h := {}, err := 9 } [65]]).map S.out =
    some (("12:003457 Write (3):\n 0000: 48 69 21                                         Hi!\n" ++
      "13:000000 Read error: 9 OO\n").toList.map fun c => UInt8.ofNat c.toNat) := by decide +kernel

/-- **C196, the time is wrong for the last half microsecond of a second.**  Then seven digits are printed. -/
theorem C196_time_violated (s n : Nat) (h1 : 999999500 ≤ n) (h2 : n < 1000000000) :
    front ⟨s, n⟩ = dec s ++ [58, 49, 48, 48, 48, 48, 48, 48, 32] := by
  have : (⟨s, n⟩ : T).usecs = 1000000 := by unfold T.usecs; simp only; omega
  unfold front
  rw [this, show dec 1000000 = [49, 48, 48, 48, 48, 48, 48] by decide +kernel]
  simp

/-- At all other times six digits are printed, and the time is right to half a microsecond. -/
theorem C196_time_partial (t : T) (h : t.nsecs < 999999500) : t.usecs < 1000000 ∧ t.nsecs ≤ 1000 * t.usecs + 499 ∧ 1000 * t.usecs ≤ t.nsecs + 500 := by
  unfold T.usecs
  omega

/-! ## What the user and the lower layer see (C197) -/

/-- **C197, writes pass.**  Without `block` a write goes down as it came and the answer goes up as it came, for all traces. -/
theorem C197_write (c : Cfg) (txt : Nat → List UInt8) (e : Env) (sg : List (List UInt8)) (s s' : S) (a : Ans) (hb : c.block = .none ∨ c.block = .read)
    (h : s.ulWrite c txt e sg = some (s', a)) : a = ⟨e.err, if e.err = 0 then some e.count else none, some sg⟩ := by
  have hb' : c.block.w = false := by rcases hb with h | h <;> rw [h] <;> rfl
  simp only [S.ulWrite, hb', Bool.false_eq_true, if_false] at h
  split at h
  · simp at h
  · split at h
    · simp at h
    · simp only [Option.some.injEq, Prod.mk.injEq] at h
      exact h.2.symm

/-- **C197, reads pass.** -/
theorem C197_read (c : Cfg) (txt : Nat → List UInt8) (e : Env) (buf : List UInt8) (s s' : S) (a : Ans) (hb : c.block = .none ∨ c.block = .write)
    (h : s.llWrite c txt e buf = some (s', a)) : a = ⟨e.err, if e.err = 0 then some e.count else none, some [buf]⟩ := by
  have hb' : c.block.r = false := by rcases hb with h | h <;> rw [h] <;> rfl
  simp only [S.llWrite, hb', Bool.false_eq_true, if_false] at h
  split at h
  · simp at h
  · split at h
    · simp at h
    · simp only [Option.some.injEq, Prod.mk.injEq] at h
      exact h.2.symm

/-- **C197, blocked reads.**  They never get up, and all bytes are reported as taken. -/
theorem C197_block_read (c : Cfg) (txt : Nat → List UInt8) (e : Env) (buf : List UInt8) (s s' : S) (a : Ans) (hb : c.block = .read ∨ c.block = .both)
    (h : s.llWrite c txt e buf = some (s', a)) : a = ⟨0, some buf.length, none⟩ := by
  have hb' : c.block.r = true := by rcases hb with h | h <;> rw [h] <;> rfl
  simp only [S.llWrite, hb', if_true] at h
  split at h
  · simp at h
  simp only [Option.some.injEq, Prod.mk.injEq] at h
  replace h := h.2
  exact h.symm

/-- **C197, blocked writes.**  They never get down; all bytes are reported as taken if writes are not traced before. -/
theorem C197_block_write_partial (c : Cfg) (txt : Nat → List UInt8) (e : Env) (sg : List (List UInt8)) (s s' : S) (a : Ans)
    (hb : c.block = .write ∨ c.block = .both) (h : s.ulWrite c txt e sg = some (s', a)) :
    a.err = 0 ∧ a.passed = none ∧ ((c.b4 = .none ∨ c.b4 = .read) → a.count = some sg.flatten.length) := by
  have hb' : c.block.w = true := by rcases hb with h | h <;> rw [h] <;> rfl
  simp only [S.ulWrite, hb', if_true] at h
  split at h
  · simp at h
  simp only [Option.some.injEq, Prod.mk.injEq] at h
  replace h := h.2
  refine ⟨by rw [← h], by rw [← h], fun h4 => ?_⟩
  have h4' : c.b4.w = false := by rcases h4 with h | h <;> rw [h] <;> rfl
  rw [← h, h4']
  simp [total_flatten]

/-- **C197, more bytes taken than were given.**  With `b4dir` and `block` for writes each write reports twice its bytes. -/
theorem C197_count_violated (c : Cfg) (txt : Nat → List UInt8) (e : Env) (sg : List (List UInt8)) (s : S) (hd : e.h.data.length = 16)
    (hb : c.block = .write ∨ c.block = .both) (h4 : c.b4 = .write ∨ c.b4 = .both) :
    ∃ s', s.ulWrite c txt e sg = some (s', ⟨0, some (2 * sg.flatten.length), none⟩) := by
  have hb' : c.block.w = true := by rcases hb with h | h <;> rw [h] <;> rfl
  have h4' : c.b4.w = true := by rcases h4 with h | h <;> rw [h] <;> rfl
  simp only [S.ulWrite, hb', h4', if_true, Nat.zero_add, total_flatten]
  by_cases hs : s.tr = .none
  · rw [data_none hs]
    exact ⟨s, by simp; omega⟩
  · rw [data_ok hd hs (Nat.le_refl _)]
    exact ⟨_, by simp only; rw [show sg.flatten.length + sg.flatten.length = 2 * sg.flatten.length by omega]⟩

/-- **C197, discarded data is traced.**  With the same settings the data is thrown away and is in the trace, against the documentation. -/
theorem C197_discard_violated (c : Cfg) (txt : Nat → List UInt8) (e : Env) (sg : List (List UInt8)) (s : S) (hs : s.tr ≠ .none) (hr : c.raw = true)
    (hd : e.h.data.length = 16) (hb : c.block = .both) (h4 : c.b4 = .both) (hc : e.count ≤ sg.flatten.length) :
    s.step c txt (.ulWrite e sg) = some { s with out := s.out ++ sg.flatten } := by
  rw [step_open (ev := .ulWrite e sg) hs ⟨hc, hd⟩ trivial]
  have h1 : c.b4.w = true := by rw [h4]; rfl
  have h2 : c.block.w = true := by rw [hb]; rfl
  simp only [Ev.entries, h1, h2, if_true, some', hr]
  by_cases h0 : sg.flatten = [] <;> simp [h0, Entry.text]

/-- A write of 4 bytes is answered with 8, as of a user with `b4dir=both,block=both`. -/
example : (({} : S).ulWrite { b4 := .both, block := .both } (fun _ => []) { t1 := ⟨0, 0⟩, t2 := ⟨0, 0⟩, h := {} } [[1, 2], [3, 4]]) =
    some ({}, ⟨0, some 8, none⟩) := by decide +kernel

/-! ## The file (C198) -/

/-- The base connects a filter only when it is new or was cleaned up. -/
def Polite (c : Cfg) (txt : Nat → List UInt8) (s : S) : List Ev → Prop
  | [] => True
  | ev :: evs => ((∃ ok, ev = .connect ok) → s.tr = .none) ∧ ev.Fair ∧ ∀ s', s.step c txt ev = some s' → Polite c txt s' evs

/-- The handles: a file is open if and only if one more was opened than closed; the standard streams are neither opened nor closed. -/
def Handles (c : Cfg) (s : S) : Prop :=
  (s.tr = .none ∨ s.tr = c.sink) ∧ s.fds = s.closed + (if s.tr = .file then 1 else 0) ∧ (c.sink ≠ .file → s.fds = 0)

theorem step_some {c : Cfg} {txt : Nat → List UInt8} {s : S} {ev : Ev} (hf : ev.Fair) : ∃ s', s.step c txt ev = some s' ∧
    (ev.moves → s'.tr = s.tr ∧ s'.fds = s.fds ∧ s'.closed = s.closed ∧ s.out <+: s'.out) := by
  by_cases hm : ev.moves
  · by_cases hs : s.tr = .none
    · exact ⟨s, step_closed hs hm, fun _ => ⟨rfl, rfl, rfl, List.prefix_refl _⟩⟩
    · exact ⟨_, step_open hs hf hm, fun _ => ⟨rfl, rfl, rfl, List.prefix_append _ _⟩⟩
  · cases ev with
    | connect ok => exact ⟨_, rfl, fun h => (hm h).elim⟩
    | cleanup => exact ⟨_, rfl, fun h => (hm h).elim⟩
    | ulWrite => exact (hm trivial).elim
    | llWrite => exact (hm trivial).elim

theorem step_handles {c : Cfg} {txt : Nat → List UInt8} {s s' : S} {ev : Ev} (hf : ev.Fair) (hp : (∃ ok, ev = .connect ok) → s.tr = .none)
    (hh : Handles c s) (h : s.step c txt ev = some s') : Handles c s' := by
  obtain ⟨h1, h2, h3⟩ := hh
  by_cases hm : ev.moves
  · obtain ⟨q, e, f⟩ := step_some (c := c) (txt := txt) (s := s) hf
    rw [e, Option.some.injEq] at h
    subst h
    obtain ⟨a, b, d, _⟩ := f hm
    exact ⟨by rw [a]; exact h1, by rw [a, b, d]; exact h2, by rw [b]; exact h3⟩
  · cases ev with
    | ulWrite => exact (hm trivial).elim
    | llWrite => exact (hm trivial).elim
    | connect ok =>
      have ht := hp ⟨ok, rfl⟩
      rw [ht] at h2
      simp only [S.step, Option.some.injEq] at h
      subst h
      unfold Handles S.connect
      cases hk : c.sink <;> simp only [hk] at h3 ⊢
      · exact ⟨Or.inl ht, by rw [ht]; exact h2, by simpa using h3⟩
      · exact ⟨Or.inr trivial, by simpa using h2, by simpa using h3⟩
      · exact ⟨Or.inr trivial, by simpa using h2, by simpa using h3⟩
      · cases ok
        · exact ⟨Or.inl rfl, by simpa using h2, by simp⟩
        · exact ⟨Or.inr rfl, by simpa using h2, by simp⟩
    | cleanup =>
      simp only [S.step, Option.some.injEq] at h
      subst h
      unfold Handles S.cleanup
      rcases h1 with ht | ht
      · rw [ht] at h2
        simp only [ht, ne_eq, not_true_eq_false, and_false, if_false]
        exact ⟨Or.inl trivial, by simpa using h2, h3⟩
      · cases hk : c.sink <;> simp only [hk] at h3 ht ⊢ <;> rw [ht] at h2 <;> simp [ht] at h2 h3 ⊢ <;> omega

/-- **C198, the handles.**  For all histories of the base, over any number of sessions: the filter never does what is not allowed, each file
that was opened is closed once, by the `cleanup` of its session, and standard output and standard error are never closed. -/
theorem C198_handles (c : Cfg) (txt : Nat → List UInt8) (evs : List Ev) : ∀ s, Handles c s → Polite c txt s evs →
    ∃ s', s.run c txt evs = some s' ∧ Handles c s' ∧ (s'.tr = .none → s'.closed = s'.fds) := by
  induction evs with
  | nil =>
    intro s hh _
    exact ⟨s, rfl, hh, fun h => by have := hh.2.1; rw [h] at this; simp at this; omega⟩
  | cons ev evs ih =>
    intro s hh hp
    obtain ⟨hp1, hf, hp2⟩ := hp
    obtain ⟨s1, e, _⟩ := step_some (c := c) (txt := txt) (s := s) hf
    obtain ⟨s', e', r⟩ := ih s1 (step_handles hf hp1 hh e) (hp2 s1 e)
    exact ⟨s', by unfold S.run; rw [e]; exact e', r⟩

/-- **C198, the old text stays.**  Without `delold` nothing that was written is ever lost, for all histories and sessions. -/
theorem C198_append (c : Cfg) (txt : Nat → List UInt8) (hd : c.delold = false) (evs : List Ev) : ∀ s s' : S, (∀ ev ∈ evs, ev.Fair) →
    s.run c txt evs = some s' → s.out <+: s'.out := by
  induction evs with
  | nil =>
    intro s s' _ h
    simp only [S.run, Option.some.injEq] at h
    rw [h]; exact List.prefix_refl _
  | cons ev evs ih =>
    intro s s' hf h
    unfold S.run at h
    obtain ⟨q, e, f⟩ := step_some (c := c) (txt := txt) (s := s) (hf ev (by simp))
    rw [e] at h
    refine List.IsPrefix.trans ?_ (ih q s' (fun x hx => hf x (by simp [hx])) h)
    by_cases hm : ev.moves
    · exact (f hm).2.2.2
    · cases ev with
      | ulWrite => exact (hm trivial).elim
      | llWrite => exact (hm trivial).elim
      | connect ok =>
        simp only [S.step, Option.some.injEq] at e
        subst e
        unfold S.connect
        cases c.sink <;> simp [hd]
        cases ok <;> simp
      | cleanup =>
        simp only [S.step, Option.some.injEq] at e
        subst e
        unfold S.cleanup
        simp only
        split <;> exact List.prefix_refl _

/-- **C198, with `delold` the file holds the last session.** -/
theorem C198_delold (c : Cfg) (txt : Nat → List UInt8) (hd : c.delold = true) (hk : c.sink = .file) (s : S) (evs : List Ev)
    (hf : ∀ ev ∈ evs, ev.Fair ∧ ev.moves) :
    (s.run c txt (.connect true :: evs)).map S.out = some ((evs.flatMap (Ev.entries c)).flatMap (Entry.text c.raw txt)) := by
  unfold S.run
  simp only [S.step, S.connect, hk, hd, if_true]
  rw [C196_trace c txt evs _ (by simp) hf]
  simp

/-- **C198, an open that fails** is reported, and then nothing is traced. -/
theorem C198_open_fails (c : Cfg) (s : S) (hk : c.sink = .file) : (s.connect c false).2 ≠ 0 ∧ (s.connect c false).1.tr = .none ∧
    (s.connect c true).2 = 0 := by
  simp [S.connect, hk]

/-- Without a place for the trace `dir` does not matter (:327-328), and nothing is ever written: also with `b4dir`. -/
theorem C198_no_place (c : Cfg) (txt : Nat → List UInt8) (hk : c.sink = .none) (evs : List Ev) : ∀ s : S, s.tr = .none →
    (s.run c.alloc txt evs) = some s ∧ c.alloc.dir = .none := by
  have ha : c.alloc.dir = .none ∧ c.alloc.sink = .none := by simp [Cfg.alloc, hk]
  intro s hs
  refine ⟨?_, ha.1⟩
  induction evs with
  | nil => rfl
  | cons ev evs ih =>
    unfold S.run
    by_cases hm : ev.moves
    · rw [step_closed hs hm]; exact ih
    · cases ev with
      | ulWrite => exact (hm trivial).elim
      | llWrite => exact (hm trivial).elim
      | connect ok =>
        simp only [S.step, S.connect, ha.2]
        exact ih
      | cleanup =>
        simp only [S.step, S.cleanup, hs]
        cases s
        simp only at hs
        subst hs
        simpa using ih

/-- Two sessions with a raw trace of writes: one handle each, both closed, and the text of both. -/
example : (({} : S).run { dir := .write, raw := true, sink := .file } (fun _ => [])
    [.connect true, .ulWrite { t1 := ⟨0, 0⟩, t2 := ⟨0, 0⟩, h := {}, count := 3 } [[1, 2], [3, 4]], .cleanup,
     .connect true, .ulWrite { t1 := ⟨0, 0⟩, t2 := ⟨0, 0⟩, h := {}, count := 1 } [[4]], .cleanup]) =
    some ⟨.none, [1, 2, 3, 4], 2, 2⟩ := by decide +kernel

end Gensio.Trace
