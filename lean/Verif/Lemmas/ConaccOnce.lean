import Verif.Model.Conacc
/-!
# Connections are handed over once
-/
namespace Gensio.Conacc

/-- How often connection `i` was handed over. -/
def handed (i : Nat) (l : List Ev) : Nat := (l.filter (· = .newConn i)).length

theorem handed_add (i : Nat) (l : List Ev) (e : Ev) : handed i (l ++ [e]) = handed i l + if e = .newConn i then 1 else 0 := by
  unfold handed
  rw [List.filter_append, List.length_append]
  by_cases h : e = .newConn i <;> simp [h]

/-- Nothing is handed over, and no open of a connection that there is begins or ends. -/
structure Quiet (s t : Na) : Prop where
  log : ∀ i, handed i t.log = handed i s.log
  n : s.n ≤ t.n
  opn : ∀ i, i < s.n → (t.conns i).opn = (s.conns i).opn
  pc : ∀ i, i < s.n → (t.conns i).pc = (s.conns i).pc
  new : ∀ i, s.n ≤ i → (t.conns i).pc = .idle ∨ (t.conns i).pc = (s.conns i).pc
  newO : ∀ i, t.n ≤ i → (t.conns i).opn = (s.conns i).opn

theorem Quiet.refl (s : Na) : Quiet s s := ⟨fun _ => rfl, Nat.le_refl _, fun _ _ => rfl, fun _ _ => rfl, fun _ _ => .inr rfl, fun _ _ => rfl⟩

theorem Quiet.trans {s t u : Na} (h : Quiet s t) (k : Quiet t u) : Quiet s u := by
  refine ⟨fun i => (k.log i).trans (h.log i), Nat.le_trans h.n k.n, fun i hi => (k.opn i (Nat.lt_of_lt_of_le hi h.n)).trans (h.opn i hi),
    fun i hi => (k.pc i (Nat.lt_of_lt_of_le hi h.n)).trans (h.pc i hi), fun i hi => ?_, fun i hi => (k.newO i hi).trans (h.newO i (Nat.le_trans k.n hi))⟩
  by_cases ht : i < t.n
  · rw [k.pc i ht]; exact h.new i hi
  · rcases k.new i (by omega) with e | e
    · exact .inl e
    · rw [e]; exact h.new i hi

/-- What a change of other parts is. -/
theorem Quiet.same {s t : Na} (h1 : t.log = s.log) (h2 : t.n = s.n) (h3 : t.conns = s.conns) : Quiet s t :=
  ⟨fun _ => by rw [h1], by rw [h2]; exact Nat.le_refl _, fun _ _ => by rw [h3], fun _ _ => by rw [h3], fun _ _ => .inr (by rw [h3]), fun _ _ => by rw [h3]⟩

theorem Quiet.setc {s : Na} (i : Nat) (c : Conn) (h1 : c.opn = (s.conns i).opn) (h2 : c.pc = (s.conns i).pc) : Quiet s (s.setc i c) := by
  have a : ∀ j, ((s.setc i c).conns j).opn = (s.conns j).opn := by
    intro j; unfold Na.setc; simp only; split
    · rename_i e; rw [e, h1]
    · rfl
  have b : ∀ j, ((s.setc i c).conns j).pc = (s.conns j).pc := by
    intro j; unfold Na.setc; simp only; split
    · rename_i e; rw [e, h2]
    · rfl
  exact ⟨fun _ => rfl, Nat.le_refl _, fun j _ => a j, fun j _ => b j, fun j _ => .inr (b j), fun j _ => a j⟩

theorem Quiet.say {s : Na} (e : Ev) (h : ∀ i, e ≠ .newConn i) : Quiet s (s.say e) :=
  ⟨fun i => by unfold Na.say; simp only; rw [handed_add, if_neg (h i)]; rfl, Nat.le_refl _, fun _ _ => rfl, fun _ _ => rfl, fun _ _ => .inr rfl, fun _ _ => rfl⟩

theorem Quiet.pre {s u t : Na} (k : Quiet u t) (h1 : u.log = s.log) (h2 : u.n = s.n) (h3 : u.conns = s.conns) : Quiet s t :=
  (Quiet.same h1 h2 h3).trans k

theorem Quiet.post {s u t : Na} (k : Quiet s u) (h1 : t.log = u.log) (h2 : t.n = u.n) (h3 : t.conns = u.conns) : Quiet s t :=
  k.trans (Quiet.same h1 h2 h3)

theorem Quiet.preSetc {s t : Na} {i : Nat} {c : Conn} (k : Quiet (s.setc i c) t) (h1 : c.opn = (s.conns i).opn) (h2 : c.pc = (s.conns i).pc) : Quiet s t :=
  (Quiet.setc i c h1 h2).trans k

theorem deref_q {s t : Na} (q : deref s = some t) : Quiet s t := by
  unfold deref at q
  split at q
  · cases q
  · split at q <;> cases q <;> exact .same rfl rfl rfl

theorem deferOp_q (s : Na) : Quiet s (deferOp s) := by
  unfold deferOp; split
  · exact .refl s
  · exact .same rfl rfl rfl

theorem startRetry_q {s t : Na} (q : startRetry s = some t) : Quiet s t := by
  unfold startRetry at q
  split at q <;> cases q
  exact .same rfl rfl rfl

theorem failed_q {s t : Na} (q : failed s = some t) : Quiet s t := by
  unfold failed at q
  split at q
  · exact startRetry_q q
  · cases q; exact Quiet.pre (deferOp_q _) rfl rfl rfl

theorem start_q {s t : Na} {ok : Bool} (q : start s ok = some t) : Quiet s t := by
  unfold start at q
  split at q
  · cases q; exact .same rfl rfl rfl
  · split at q
    · cases q
      have ne : ∀ i, i ≠ s.n → (s.setc s.n { st := .inOpen, ch := .opening, opn := true }).conns i = s.conns i := fun i hi => by simp [Na.setc, hi]
      refine ⟨fun _ => rfl, Nat.le_succ _, fun i hi => ?_, fun i hi => ?_, fun i hi => ?_, fun i hi => ?_⟩
      · simp only; rw [ne i (by omega)]
      · simp only; rw [ne i (by omega)]
      · simp only
        by_cases e : i = s.n
        · subst e; left; simp [Na.setc]
        · rw [ne i e]; exact .inr rfl
      · simp only at hi ⊢; rw [ne i (by omega)]
    · exact failed_q q

theorem bind_q {s : Na} {x : Option Na} {f : Na → Option Na} {t : Na} (h : ∀ u, x = some u → Quiet s u) (k : ∀ u v, f u = some v → Quiet u v)
    (q : x.bind f = some t) : Quiet s t := by
  obtain ⟨u, hu, q⟩ := Option.bind_eq_some_iff.1 q
  exact (h u hu).trans (k u t q)

theorem finish2_q {s t : Na} (q : finish2 s = some t) : Quiet s t := by
  unfold finish2 at q
  split at q
  · split at q <;> cases q
    exact .same rfl rfl rfl
  · exact Quiet.pre (deref_q q) rfl rfl rfl

theorem finishShut_q {s t : Na} (q : finishShut s = some t) : Quiet s t := by
  unfold finishShut at q
  split at q
  · split at q <;> cases q
    exact (Quiet.say (.enCb _) (by simp)).post rfl rfl rfl
  · exact finish2_q q

theorem deferSwitch_q {s t : Na} {ok : Bool} (q : deferSwitch s ok = some t) : Quiet s t := by
  unfold deferSwitch at q
  split at q
  · exact finishShut_q q
  · exact Quiet.pre (deref_q q) rfl rfl rfl
  · exact bind_q (fun _ h => start_q h) (fun _ _ h => deref_q h) q
  · split at q
    · split at q <;> cases q
      exact .same rfl rfl rfl
    · exact deref_q q
  · exact deref_q q

theorem doDeferred_q {s t : Na} {ok : Bool} (q : doDeferred s ok = some t) : Quiet s t := by
  unfold doDeferred at q
  split at q
  · cases q
  · simp only at q
    split at q
    · split at q <;> cases q
      exact (Quiet.say (.enCb _) (by simp)).post rfl rfl rfl
    · exact Quiet.pre (deferSwitch_q q) rfl rfl rfl

theorem finishClose_q {s t : Na} {i : Nat} {ok : Bool} (q : finishClose s i ok = some t) : Quiet s t := by
  unfold finishClose at q
  simp only at q
  have h1 : Quiet s (s.setc i { s.conns i with st := .closed }) := .setc i _ rfl rfl
  split at q
  · cases q; exact h1
  · split at q
    · cases q
    · obtain ⟨u, hu, q⟩ := Option.bind_eq_some_iff.1 q
      refine h1.trans (Quiet.trans ?_ (deref_q q))
      split at hu
      · split at hu
        · exact (startRetry_q hu).pre rfl rfl rfl
        · exact (start_q hu).pre rfl rfl rfl
      · cases hu; exact .same rfl rfl rfl

theorem iClose_q {s t : Na} {i : Nat} {id : Option Nat} {ok : Bool} (q : iClose s i id ok = some t) : Quiet s t := by
  unfold iClose at q
  simp only at q
  split at q
  · cases q; exact .setc i _ rfl rfl
  · exact Quiet.preSetc (finishClose_q q) rfl rfl

theorem cderef_q {s t : Na} {i : Nat} (q : cderef s i = some t) : Quiet s t := by
  unfold cderef at q
  simp only at q
  split at q
  · cases q
  · split at q <;> cases q <;> exact .setc i _ rfl rfl

theorem connFree_q {s t : Na} {i : Nat} {ok : Bool} (q : connFree s i ok = some t) : Quiet s t := by
  unfold connFree at q
  split at q
  · cases q
  · refine bind_q (fun u h => ?_) (fun _ _ h => cderef_q h) q
    split at h
    · exact iClose_q h
    · cases h; exact .refl _

theorem connDisable_q {s t : Na} {i : Nat} {ok : Bool} (q : connDisable s i ok = some t) : Quiet s t := by
  unfold connDisable at q
  simp only at q
  split at q
  · cases q
  · have h1 : Quiet s (s.setc i { s.conns i with st := .closed, ch := .closed, na := false }) := .setc i _ rfl rfl
    split at q
    · cases q; exact h1
    · split at q
      · cases q
      · obtain ⟨u, hu, q⟩ := Option.bind_eq_some_iff.1 q
        refine h1.trans (Quiet.trans ?_ (start_q q))
        split at hu
        · exact (startRetry_q hu).pre rfl rfl rfl
        · exact (start_q hu).pre rfl rfl rfl

theorem timeout_q {s t : Na} {ok : Bool} (q : timeout s ok = some t) : Quiet s t := by
  unfold timeout at q
  split at q
  · cases q
  · split at q
    · exact finishShut_q q
    · exact bind_q (fun _ h => start_q h) (fun _ _ h => deref_q h) q
    · exact bind_q (fun _ h => start_q h) (fun _ _ h => deref_q h) q
    · exact Quiet.pre (deref_q q) rfl rfl rfl
    · cases q

theorem callEnabled_q {s t : Na} (q : callEnabled s = some t) : Quiet s t := by
  unfold callEnabled at q
  split at q
  · split at q <;> cases q
    exact (Quiet.say (.enCb _) (by simp)).post rfl rfl rfl
  · exact deref_q q

theorem timerDone_q {s t : Na} {ok : Bool} (q : timerDone s ok = some t) : Quiet s t := by
  unfold timerDone at q
  split at q
  · cases q
  · split at q
    · exact finishShut_q q
    · exact Quiet.pre (callEnabled_q q) rfl rfl rfl
    · exact bind_q (fun _ h => start_q h) (fun _ _ h => deref_q h) q
    · cases q

theorem shutClose_q {s t : Na} (q : shutClose s = some t) : Quiet s t := by
  unfold shutClose at q
  split at q
  · cases q
  · simp only at q
    split at q
    · exact Quiet.pre (callEnabled_q q) rfl rfl rfl
    · exact Quiet.pre (finishShut_q q) rfl rfl rfl
    · cases q

theorem startup_q {s t : Na} {ok : Bool} (q : startup s ok = some t) : Quiet s t := by
  unfold startup at q
  split at q
  · cases q
  · split at q
    · cases q; exact .refl _
    · split at q
      · cases q; exact .refl _
      · split at q
        · cases q; exact .same rfl rfl rfl
        · obtain ⟨u, hu, q⟩ := Option.map_eq_some_iff.1 q
          refine Quiet.pre ((start_q hu).trans ?_) rfl rfl rfl
          split at q <;> subst q <;> exact .same rfl rfl rfl

theorem closeCur_q {s : Na} {r : Na × Bool} (q : closeCur s = some r) : Quiet s r.1 := by
  unfold closeCur at q
  split at q
  · cases q
  · simp only at q
    split at q
    · cases q
    · split at q <;> cases q
      · exact .setc _ _ rfl rfl
      · exact .refl _

theorem shutdown_q {s : Na} {r : Na × Bool} (q : shutdown s = some r) : Quiet s r.1 := by
  unfold shutdown at q
  simp only at q
  split at q
  · cases q
  · split at q
    · cases q; exact .refl _
    · cases q; exact .refl _
    · cases q; exact .refl _
    · obtain ⟨u, hu, q⟩ := Option.bind_eq_some_iff.1 q
      refine (closeCur_q hu).trans ?_
      split at q <;> cases q
      · exact .same rfl rfl rfl
      · exact Quiet.pre ((deferOp_q _).post rfl rfl rfl) rfl rfl rfl
    · split at q <;> cases q
      · exact .same rfl rfl rfl
      · exact Quiet.pre ((deferOp_q _).post rfl rfl rfl) rfl rfl rfl
    all_goals first
      | (cases q; exact .same rfl rfl rfl)
      | (cases q; exact Quiet.pre ((deferOp_q _).post rfl rfl rfl) rfl rfl rfl)

theorem enEnd_q {s t : Na} {en : Bool} {d : Option Nat} {df : Bool} (q : enEnd s en d df = some t) : Quiet s t := by
  unfold enEnd at q
  cases q
  have h : Quiet s { (match d with | some id => s.say (.enReq id) | none => s) with enabled := en, enDone := d } := by
    cases d with
    | none => exact .same rfl rfl rfl
    | some id => exact (Quiet.say (.enReq id) (by simp)).post rfl rfl rfl
  split
  · exact h.trans (deferOp_q _)
  · exact h

theorem enable_q {s t : Na} {en : Bool} {d : Option Nat} {ok : Bool} (q : enable s en d ok = some t) : Quiet s t := by
  have e : ∀ {u : Na} {df : Bool}, enEnd u en d df = some t → u.log = s.log → u.n = s.n → u.conns = s.conns → Quiet s t :=
    fun q a b c => (Quiet.same a b c).trans (enEnd_q q)
  unfold enable at q
  split at q
  · cases q
  · split at q
    · cases q; exact .refl _
    · split at q
      · exact enEnd_q q
      · exact enEnd_q q
      · exact enEnd_q q
      · exact enEnd_q q
      · split at q
        · refine bind_q (fun _ h => start_q h) (fun u v h => ?_) q
          split at h
          · cases h; exact .same rfl rfl rfl
          · exact enEnd_q h
        · exact enEnd_q q
      · split at q
        · exact enEnd_q q
        · obtain ⟨u, hu, q⟩ := Option.bind_eq_some_iff.1 q
          refine (closeCur_q hu).trans ?_
          split at q
          · exact Quiet.pre (enEnd_q q) rfl rfl rfl
          · exact Quiet.pre (enEnd_q q) rfl rfl rfl
      · exact e q rfl rfl rfl
      · split at q
        · exact enEnd_q q
        · split at q
          · exact e q rfl rfl rfl
          · exact e q rfl rfl rfl
          · cases q
      · cases en <;> exact e q rfl rfl rfl
      · cases en <;> exact e q rfl rfl rfl
      · cases en <;> exact e q rfl rfl rfl

/-- Once handed over, a connection is not opened any more. -/
structure Once (s : Na) : Prop where
  le : ∀ i, handed i s.log ≤ 1
  done : ∀ i, handed i s.log = 1 → i < s.n ∧ (s.conns i).opn = false ∧ (s.conns i).pc = .idle
  pc : ∀ i, (s.conns i).pc ≠ .idle → i < s.n ∧ (s.conns i).opn = false
  old : ∀ i, s.n ≤ i → (s.conns i).opn = false

theorem Quiet.once {s t : Na} (q : Quiet s t) (h : Once s) : Once t := by
  refine ⟨fun i => by rw [q.log]; exact h.le i, fun i hi => ?_, fun i hi => ?_, fun i hi => by rw [q.newO i hi]; exact h.old i (Nat.le_trans q.n hi)⟩
  · rw [q.log] at hi
    obtain ⟨h1, h2, h3⟩ := h.done i hi
    exact ⟨Nat.lt_of_lt_of_le h1 q.n, by rw [q.opn i h1]; exact h2, by rw [q.pc i h1]; exact h3⟩
  · by_cases hn : i < s.n
    · rw [q.pc i hn] at hi
      exact ⟨Nat.lt_of_lt_of_le hn q.n, by rw [q.opn i hn]; exact (h.pc i hi).2⟩
    · rcases q.new i (by omega) with e | e
      · exact absurd e hi
      · rw [e] at hi; exact absurd (h.pc i hi).1 hn

/-- A connection whose open is going on, or was, gets another `pc`. -/
theorem Once.setpc {s : Na} (h : Once s) {i : Nat} {c : Conn} (ho : c.opn = false) (hi : (s.conns i).pc ≠ .idle ∨ (s.conns i).opn = true) : Once (s.setc i c) := by
  have hn : i < s.n := by
    rcases hi with hi | hi
    · exact (h.pc i hi).1
    · exact Nat.lt_of_not_le fun hle => by rw [h.old i hle] at hi; cases hi
  have self : (s.setc i c).conns i = c := by simp [Na.setc]
  have ne : ∀ j, j ≠ i → (s.setc i c).conns j = s.conns j := fun j hj => by simp [Na.setc, hj]
  refine ⟨h.le, fun j hj => ?_, fun j hj => ?_, fun j hj => ?_⟩
  · have hd := h.done j hj
    by_cases e : j = i
    · subst e
      rcases hi with hi | hi
      · exact absurd hd.2.2 hi
      · rw [hd.2.1] at hi; cases hi
    · rw [ne j e]; exact hd
  · by_cases e : j = i
    · subst e; rw [self]; exact ⟨hn, ho⟩
    · rw [ne j e] at hj ⊢; exact h.pc j hj
  · by_cases e : j = i
    · subst e; rw [self]; exact ho
    · rw [ne j e]; exact h.old j hj

theorem Once.via {s t : Na} (h : Once s) (q : Quiet s t) : Once t := q.once h

theorem step_once {s t : Na} {o : Op} (h : Once s) (q : step s o = some t) : Once t := by
  have idle : ∀ {u : Na} {f : Na → Option Na}, u.log = s.log → u.n = s.n → u.conns = s.conns → (∀ v w, f v = some w → Quiet v w) → f u = some t → Once t :=
    fun a b c k q => ((Quiet.same a b c).trans (k _ _ q)).once h
  cases o with
  | startup ok =>
    simp only [step] at q
    split at q
    · cases q; exact h
    · exact h.via (startup_q q)
  | shutdown =>
    simp only [step] at q
    split at q
    · cases q; exact h
    · obtain ⟨u, hu, q⟩ := Option.map_eq_some_iff.1 q
      split at q <;> subst q
      · exact h.via ((shutdown_q hu).trans ((Quiet.say .shutReq (by simp)).post rfl rfl rfl))
      · exact h.via (shutdown_q hu)
  | enable en d ok =>
    simp only [step] at q
    split at q
    · cases q; exact h
    · exact h.via (enable_q q)
  | free =>
    simp only [step, accFree] at q
    split at q
    · cases q; exact h
    · split at q
      · obtain ⟨u, hu, q⟩ := Option.map_eq_some_iff.1 q
        subst q
        exact h.via (Quiet.pre ((shutdown_q hu).post rfl rfl rfl) rfl rfl rfl)
      · cases q; exact h.via (Quiet.same rfl rfl rfl)
  | control =>
    simp only [step, control] at q
    split at q
    · cases q; exact h
    · split at q
      · cases q
      · split at q
        · split at q <;> cases q; exact h
        · cases q; exact h
  | closeIo i id ok =>
    simp only [step] at q
    split at q
    · cases q; exact h
    · split at q
      · cases q
      · exact h.via (iClose_q q)
  | freeIo i ok =>
    simp only [step] at q
    split at q
    · cases q; exact h
    · exact h.via (Quiet.preSetc (connFree_q q) rfl rfl)
  | disableIo i ok =>
    simp only [step] at q
    split at q
    · cases q; exact h
    · exact h.via (connDisable_q q)
  | opened i err =>
    simp only [step] at q
    split at q
    · cases q; exact h
    · rename_i hc
      have ho : (s.conns i).opn = true := by
        cases hx : (s.conns i).opn with
        | true => rfl
        | false => exact absurd (.inl (by rw [hx]; rfl)) hc
      split at q <;> cases q
      · exact h.setpc rfl (.inr ho)
      · exact h.setpc rfl (.inr ho)
  | openDone i ok =>
    simp only [step] at q
    split at q
    · cases q; exact h
    · rename_i err hpc
      have hi : (s.conns i).pc ≠ .idle := by rw [hpc]; simp
      split at q
      · cases q
      · unfold openDone1 at q
        split at q
        · cases q
        · split at q <;> cases q <;> exact h.setpc (h.pc i hi).2 (.inl hi)
    · rename_i hpc
      have hi : (s.conns i).pc ≠ .idle := by rw [hpc]; simp
      split at q
      · cases q
      · unfold openDone2 at q
        split at q
        · cases q; exact h.setpc (h.pc i hi).2 (.inl hi)
        · split at q
          · cases q
          · split at q <;> cases q <;> exact h.setpc (h.pc i hi).2 (.inl hi)
    · rename_i err hpc
      have hi : (s.conns i).pc ≠ .idle := by rw [hpc]; simp
      split at q
      · cases q
      · unfold openDone3 at q
        split at q
        · cases q
        · split at q
          · split at q
            · obtain ⟨u, hu, q⟩ := Option.bind_eq_some_iff.1 q
              have fq := failed_q hu
              have hu1 := fq.once h
              have hn := (h.pc i hi).1
              have hiu : (u.conns i).pc ≠ .idle := by rw [fq.pc i hn]; exact hi
              have h2 := hu1.setpc (c := { u.conns i with pc := .idle, gone := true }) (hu1.pc i hiu).2 (.inl hiu)
              exact h2.via (Quiet.pre (deref_q q) rfl rfl rfl)
            · cases q
              have h2 := h.setpc (c := { s.conns i with pc := .od4 }) (h.pc i hi).2 (.inl hi)
              exact h2.via (Quiet.same rfl rfl rfl)
          · split at q
            · have h2 := h.setpc (c := { s.conns i with pc := .idle, gone := true }) (h.pc i hi).2 (.inl hi)
              exact h2.via (Quiet.pre (deref_q q) rfl rfl rfl)
            · cases q
          · cases q
    · rename_i hpc
      have hi : (s.conns i).pc ≠ .idle := by rw [hpc]; simp
      split at q
      · cases q
      · unfold openDone4 at q
        simp only at q
        have h2 := h.setpc (c := { s.conns i with pc := .idle }) (h.pc i hi).2 (.inl hi)
        split at q
        · cases q
          have hz : handed i s.log = 0 := by
            have := h.le i
            by_cases e : handed i s.log = 1
            · exact absurd (h.done i e).2.2 hi
            · omega
          have self : (s.setc i { s.conns i with pc := .idle }).conns i = { s.conns i with pc := .idle } := by simp [Na.setc]
          have h3 := (Quiet.setc (s := s.setc i { s.conns i with pc := .idle }) i { (s.setc i { s.conns i with pc := .idle }).conns i with user := true } rfl rfl).once h2
          refine ⟨fun j => ?_, fun j hj => ?_, h3.pc, h3.old⟩
          · have hl : handed j (s.log ++ [.newConn i]) = handed j s.log + if Ev.newConn i = .newConn j then 1 else 0 := handed_add j s.log _
            show handed j (s.log ++ [.newConn i]) ≤ 1
            rw [hl]
            by_cases e : i = j
            · subst e; simp [hz]
            · rw [if_neg (by simpa using e)]; exact h.le j
          · have hl : handed j (s.log ++ [.newConn i]) = handed j s.log + if Ev.newConn i = .newConn j then 1 else 0 := handed_add j s.log _
            by_cases e : i = j
            · subst e
              refine ⟨(h.pc i hi).1, ?_, ?_⟩
              · have := (h.pc i hi).2
                simpa [Na.say, Na.setc] using this
              · simp [Na.say, Na.setc]
            · have hj' : handed j (s.log ++ [.newConn i]) = 1 := hj
              rw [hl, if_neg (by simpa using e)] at hj'
              exact h3.done j hj'
        · exact h2.via (connFree_q q)
  | closed i =>
    simp only [step] at q
    split at q
    · cases q; exact h
    · split at q
      · cases q
        exact h.via (Quiet.preSetc (.same rfl rfl rfl) rfl rfl)
      · cases q
        have h1 := (Quiet.setc (s := s) i { s.conns i with ch := .closed, cdone := none, mid := true } rfl rfl).once h
        split
        · exact h1.via (Quiet.say _ (by simp))
        · exact h1
  | closeEnd i ok =>
    simp only [step] at q
    split at q
    · cases q; exact h
    · split at q
      · cases q
      · exact h.via (Quiet.preSetc (bind_q (fun _ h => finishClose_q h) (fun _ _ h => cderef_q h) q) rfl rfl)
  | deferred ok =>
    simp only [step] at q
    split at q
    · exact h.via (doDeferred_q q)
    · cases q; exact h
  | deferredSw ok =>
    simp only [step] at q
    split at q
    · cases q; exact h
    · split at q
      · cases q
      · exact h.via (Quiet.pre (deferSwitch_q q) rfl rfl rfl)
  | finEn =>
    simp only [step] at q
    split at q
    · cases q; exact h
    · split at q
      · cases q
      · exact h.via (Quiet.pre (finish2_q q) rfl rfl rfl)
  | drop =>
    simp only [step] at q
    split at q
    · cases q; exact h
    · split at q
      · cases q
      · exact h.via (Quiet.pre (deref_q q) rfl rfl rfl)
  | timer =>
    simp only [step] at q
    split at q <;> cases q
    · exact h.via (Quiet.same rfl rfl rfl)
    · exact h
  | timeout ok =>
    simp only [step] at q
    split at q
    · cases q; exact h
    · exact h.via (Quiet.pre (timeout_q q) rfl rfl rfl)
  | timerDone ok =>
    simp only [step] at q
    split at q
    · exact h.via (Quiet.pre (timerDone_q q) rfl rfl rfl)
    · cases q; exact h
  | shutClose =>
    simp only [step] at q
    split at q
    · cases q; exact h
    · exact h.via (Quiet.pre (shutClose_q q) rfl rfl rfl)
  | report =>
    simp only [step] at q
    split at q
    · cases q; exact h
    · cases q
      split
      · exact h.via (Quiet.same rfl rfl rfl)
      · exact h.via ((Quiet.say .shutCb (by simp)).post rfl rfl rfl)
  | release =>
    simp only [step] at q
    split at q
    · cases q; exact h
    · split at q
      · cases q
      · exact h.via (Quiet.pre (deref_q q) rfl rfl rfl)

theorem run_once {s t : Na} {ops : List Op} (h : Once s) (q : run s ops = some t) : Once t := by
  induction ops generalizing s with
  | nil => cases q; exact h
  | cons o ops ih =>
    unfold run at q
    obtain ⟨u, hu, q⟩ := Option.bind_eq_some_iff.1 q
    exact ih (step_once h hu) q

theorem init_once (r : Bool) : Once (init r) :=
  ⟨fun _ => Nat.zero_le _, fun i hi => absurd hi (by simp [handed, init]), fun i hi => absurd rfl hi, fun _ _ => rfl⟩

end Gensio.Conacc
