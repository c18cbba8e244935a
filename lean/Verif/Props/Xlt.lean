import Verif.Model.Xlt
/-!
# C24: character translation
-/
namespace Gensio.Xlt

theorem fill_spec (tab : UInt8 → UInt8) (data : List UInt8) : ∀ buf : List UInt8, buf.length ≤ cap →
    fill tab buf data = some (buf ++ (data.take (cap - buf.length)).map tab) := by
  induction data with
  | nil => intro buf _; simp [fill]
  | cons b rest ih =>
    intro buf h
    rw [fill]
    by_cases hl : buf.length < cap
    · rw [if_pos hl, ih _ (by simp; omega)]
      obtain ⟨k, hk⟩ : ∃ k, cap - buf.length = k + 1 := ⟨cap - buf.length - 1, by omega⟩
      have : cap - (buf ++ [tab b]).length = k := by simp; omega
      rw [this, hk, List.take_succ_cons]
      simp
    · rw [if_neg hl]
      have : cap - buf.length = 0 := by omega
      simp [this]

/-- Number of bytes of `data` a call takes into the buffer: what fits. -/
def taken (buf data : List UInt8) : Nat := min data.length (cap - buf.length)

theorem write_spec (tab : UInt8 → UInt8) (buf data : List UInt8) (sink : Sink) (h : buf.length ≤ cap) :
    ∃ buf' r out, write tab buf data sink = some (buf', r, out) ∧ buf'.length ≤ cap ∧
      out ++ buf' = buf ++ (data.take (taken buf data)).map tab ∧
      (r = .err ∨ r = .ok (buf.length + taken buf data)) ∧ (sink ≠ none → r ≠ .err) := by
  have htk : data.take (cap - buf.length) = data.take (taken buf data) := by
    rw [taken, Nat.min_def]; split
    · rw [List.take_of_length_le (by omega), List.take_of_length_le (by omega)]
    · rfl
  simp only [write, fill_spec tab data buf h, Option.bind_eq_bind, Option.bind_some, htk]
  have hlen : (buf ++ (data.take (taken buf data)).map tab).length = buf.length + taken buf data := by
    simp [taken]
  have hcap : buf.length + taken buf data ≤ cap := by simp only [taken]; omega
  generalize buf ++ (data.take (taken buf data)).map tab = nb at *
  by_cases h0 : nb.length > 0
  · rw [if_pos h0]
    cases sink with
    | none => exact ⟨nb, .err, [], rfl, by omega, rfl, Or.inl rfl, by simp⟩
    | some k =>
      simp only []
      by_cases hk : k ≥ nb.length
      · rw [if_pos hk]
        exact ⟨[], _, nb, rfl, by simp, by simp, Or.inr (by rw [hlen]), by simp⟩
      · rw [if_neg hk]
        exact ⟨nb.drop k, _, nb.take k, rfl, by simp; omega, List.take_append_drop _ _, Or.inr (by rw [hlen]), by simp⟩
  · rw [if_neg h0]
    exact ⟨nb, _, [], rfl, by omega, rfl, Or.inr (by rw [hlen]), by simp⟩

/-- A direction of the layer with its history: what the neighbour got, and the input bytes that
went into the buffer. -/
structure Log where
  buf : List UInt8 := []
  out : List UInt8 := []
  took : List UInt8 := []

def Log.call (tab : UInt8 → UInt8) (l : Log) (op : List UInt8 × Sink) : Option Log := do
  let (buf, _, out) ← write tab l.buf op.1 op.2
  some { buf, out := l.out ++ out, took := l.took ++ op.1.take (taken l.buf op.1) }

def Log.run (tab : UInt8 → UInt8) (l : Log) (ops : List (List UInt8 × Sink)) : Option Log := ops.foldlM (Log.call tab) l

/-- **C24, translation.**  For every table and every history of calls, with any answers of the
neighbour: nothing is stored outside the buffer, and what the neighbour got followed by what is
held is the bytewise table image of the input taken, in order, each byte once. -/
theorem C24_translates (tab : UInt8 → UInt8) (ops : List (List UInt8 × Sink)) :
    ∃ l, Log.run tab {} ops = some l ∧ l.buf.length ≤ 256 ∧ l.out ++ l.buf = l.took.map tab := by
  have key : ∀ (ops : List (List UInt8 × Sink)) (l : Log), l.buf.length ≤ cap → l.out ++ l.buf = l.took.map tab →
      ∃ l', Log.run tab l ops = some l' ∧ l'.buf.length ≤ cap ∧ l'.out ++ l'.buf = l'.took.map tab := by
    intro ops
    induction ops with
    | nil => intro l h1 h2; exact ⟨l, rfl, h1, h2⟩
    | cons op ops ih =>
      intro l h1 h2
      obtain ⟨b, r, o, e, hb, ho, _⟩ := write_spec tab l.buf op.1 op.2 h1
      simp only [Log.run, List.foldlM_cons, Log.call, e, Option.bind_eq_bind, Option.bind_some]
      exact ih _ hb (by simp only [List.map_append]; rw [List.append_assoc, ho, ← List.append_assoc, h2])
  exact key ops {} (by simp) (by simp)

/-- **C24, the count, when nothing is held.**  With an empty buffer the count reported is what was
taken.  Missing: a call while bytes are held, see `C24_count_violated`; and a failing neighbour,
see `C24_error_keeps_violated`. -/
theorem C24_count_partial (tab : UInt8 → UInt8) (data : List UInt8) (k : Nat) :
    ∃ buf' out, write tab [] data (some k) = some (buf', .ok (min data.length 256), out) := by
  obtain ⟨b, r, o, e, _, _, hr, hn⟩ := write_spec tab [] data (some k) (by simp)
  rcases hr with hr | hr
  · exact absurd hr (hn (by simp))
  · subst hr
    refine ⟨b, o, ?_⟩
    rw [e]
    simp [taken]

/-- **C24 violated.**  Whenever bytes are held, the count reported is too large by exactly the number of
bytes held (:139-140, :176-177 report `pos`). -/
theorem C24_count_violated (tab : UInt8 → UInt8) (buf data : List UInt8) (h : buf.length ≤ 256) (k : Nat) :
    ∃ buf' out, write tab buf data (some k) = some (buf', .ok (taken buf data + buf.length), out) := by
  obtain ⟨b, r, o, e, _, _, hr, hn⟩ := write_spec tab buf data (some k) h
  rcases hr with hr | hr
  · exact absurd hr (hn (by simp))
  · subst hr
    exact ⟨b, o, by rw [e, Nat.add_comm]⟩

/-- Three bytes held: a one byte write reports 4. -/
example : (write id [1, 2, 3] [4] (some 0)) = some ([1, 2, 3, 4], .ok 4, []) := by decide +kernel

/-- A user that goes on after the bytes it was told were taken loses data: 250 bytes are held, 10 are
written, 6 are taken and 256 is reported, so the last 4 are never sent. -/
example : ((Log.run id {} [(List.replicate 250 7, some 0), (List.replicate 10 8, some 0)]).map
    fun l => (l.took.length, (write id (List.replicate 250 7) (List.replicate 10 8) (some 0)).map fun r => r.2.1)) =
    some (256, some (.ok 256)) := by decide +kernel

/-- **C24 violated.**  When the neighbour fails, the caller gets an error and no count, but the bytes
stay in the buffer and will be sent by the next call. -/
theorem C24_error_keeps_violated (tab : UInt8 → UInt8) (data : List UInt8) (h : data ≠ []) (hl : data.length ≤ 256) :
    write tab [] data none = some (data.map tab, .err, []) := by
  simp only [write, fill_spec tab data [] (by simp), Option.bind_eq_bind, Option.bind_some]
  rw [List.take_of_length_le (by simpa using hl)]
  have : ([] ++ data.map tab).length > 0 := by simpa using List.length_pos_iff.mpr h
  rw [if_pos this]
  simp

example : write (fun b => b + 1) [] [1, 2] none = some ([2, 3], .err, []) := by decide +kernel

/-! ### Configuration -/

/-- The image of byte `b` the arguments ask for: the last argument naming `b` wins. -/
def spec (pick : Arg → Option (UInt8 × UInt8)) (as : List Arg) (b : UInt8) : UInt8 :=
  as.foldl (fun r a => match pick a with | some (k, v) => if b = k then v else r | none => r) b

/-- What an argument says for the input direction (as the code does it: booleans always on). -/
def pickIn : Arg → Option (UInt8 × UInt8)
  | .inx a b => some (UInt8.ofNat a, UInt8.ofNat b)
  | .outx _ _ => none
  | .crlf _ | .crnl _ => some (13, 10)
  | .lfcr _ | .nlcr _ => some (10, 13)

/-- The same for the output direction. -/
def pickOut : Arg → Option (UInt8 × UInt8)
  | .inx _ _ => none
  | .outx a b => some (UInt8.ofNat a, UInt8.ofNat b)
  | .crlf _ | .crnl _ => some (10, 13)
  | .lfcr _ | .nlcr _ => some (13, 10)

/-- Arguments whose numbers are byte values. -/
def Arg.fine : Arg → Prop
  | .inx a b | .outx a b => a < 256 ∧ b < 256
  | .crlf v | .lfcr v | .crnl v | .nlcr v => v = true

/-- **C57, tables, partial.**  For arguments with numbers below 256 and no boolean given as false, both
tables are what the arguments say, the last argument for a byte winning. -/
theorem C57_tables_partial (as : List Arg) (h : ∀ a ∈ as, a.fine) :
    ∃ t, config ident as = some t ∧ ∀ b, t.1 b = spec pickIn as b ∧ t.2 b = spec pickOut as b := by
  have key : ∀ (as : List Arg) (t : (UInt8 → UInt8) × (UInt8 → UInt8)), (∀ a ∈ as, a.fine) →
      ∃ t', config t as = some t' ∧ ∀ b,
        t'.1 b = as.foldl (fun r a => match pickIn a with | some (k, v) => if b = k then v else r | none => r) (t.1 b) ∧
        t'.2 b = as.foldl (fun r a => match pickOut a with | some (k, v) => if b = k then v else r | none => r) (t.2 b) := by
    intro as
    induction as with
    | nil => intro t _; exact ⟨t, rfl, fun b => ⟨rfl, rfl⟩⟩
    | cons a as ih =>
      intro t hf
      have ha := hf a (by simp)
      have hr := fun a h => hf a (List.mem_cons_of_mem _ h)
      cases a with
      | inx a b =>
        simp only [Arg.fine] at ha
        simp only [config, processXlt, if_neg (by omega : ¬ a ≥ 256), Option.bind_eq_bind, Option.bind_some]
        obtain ⟨t', e, h'⟩ := ih _ hr
        exact ⟨t', e, fun x => by simpa [pickIn, pickOut] using h' x⟩
      | outx a b =>
        simp only [Arg.fine] at ha
        simp only [config, processXlt, if_neg (by omega : ¬ a ≥ 256), Option.bind_eq_bind, Option.bind_some]
        obtain ⟨t', e, h'⟩ := ih _ hr
        exact ⟨t', e, fun x => by simpa [pickIn, pickOut] using h' x⟩
      | crlf v => obtain ⟨t', e, h'⟩ := ih _ hr; exact ⟨t', e, fun x => by simpa [pickIn, pickOut, setT] using h' x⟩
      | lfcr v => obtain ⟨t', e, h'⟩ := ih _ hr; exact ⟨t', e, fun x => by simpa [pickIn, pickOut, setT] using h' x⟩
      | crnl v => obtain ⟨t', e, h'⟩ := ih _ hr; exact ⟨t', e, fun x => by simpa [pickIn, pickOut, setT] using h' x⟩
      | nlcr v => obtain ⟨t', e, h'⟩ := ih _ hr; exact ⟨t', e, fun x => by simpa [pickIn, pickOut, setT] using h' x⟩
  exact key as ident h

/-- **C57 violated.**  The replacement value is not range checked: "in=65:321" is accepted and means 65:65. -/
theorem C57_value_violated (v1 v2 : Nat) (h1 : v1 < 256) (_h2 : 256 ≤ v2) :
    ∃ t, config ident [.inx v1 v2] = some t ∧ t.1 (UInt8.ofNat v1) = UInt8.ofNat v2 := by
  simp only [config, processXlt, if_neg (by omega : ¬ v1 ≥ 256), Option.bind_eq_bind, Option.bind_some]
  exact ⟨_, rfl, by simp⟩

/-- **C57 violated.**  "crlf=false" turns the translation on. -/
theorem C57_false_violated : ∃ t, config ident [.crlf false] = some t ∧ t.1 13 = 10 ∧ t.2 10 = 13 := ⟨_, rfl, rfl, rfl⟩

example : ∃ t, config ident [.inx 65 66, .crlf true, .inx 65 67] = some t ∧ t.1 65 = 67 ∧ t.1 13 = 10 ∧ t.1 66 = 66 :=
  ⟨_, rfl, by decide, by decide, by decide⟩

end Gensio.Xlt
