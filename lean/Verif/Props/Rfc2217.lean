import Verif.Lemmas.Rfc2217
import Verif.Props.Telnet
/-!
# RFC 2217 and RFC 1073: C136–C140, C142, C144, C146–C148
-/
namespace Gensio.Rfc2217

/-! ### C136: every request is answered exactly once -/

/-- In any run of a client, the callbacks made for an identifier are never more than the requests
accepted with it: each accepted request was answered, waits, or was freed without an answer. -/
theorem C136_at_most_once_partial {ops : List Op} {s : Stel} (e : run {} ops = some s) (i : Nat) :
    s.acc.count i = (s.cbs.map (·.1)).count i + (s.reqs.flatMap fun r => r.id.toList).count i + s.dropped.count i ∧
    (s.freed = false → s.dropped.count i = 0 → s.reqs = [] → (s.cbs.map (·.1)).count i = s.acc.count i) := by
  have h : Inv {} := by intro i; rfl
  have hi := h.run e i
  refine ⟨hi, fun _ hd hr => ?_⟩
  rw [hr] at hi
  simp [ids] at hi hd ⊢; omega

/-- A client for which RFC 2217 was agreed on, open. -/
def client : Stel := { doRfc := true, opened := true }

/-- A request accepted and answered by the server: its callback is made once. -/
example : (match run { doRfc := true, opened := true } [.acontrol .dtr false (str "on") (some 1) none true, .received [44, 105, 8]] with
    | some s => s.acc = [1] ∧ s.cbs = [(1, .text (str "on"))] ∧ s.reqs = [] | none => false) = true := by decide +kernel

/-- A gensio freed while a request waits never makes its callback. -/
theorem C136_free_violated :
    (match run {} [.willDo true, .opn, .acontrol .dtr false (str "on") (some 1) none true, .close, .free] with
    | some s => s.acc = [1] ∧ s.cbs = [] ∧ s.freed | none => false) = true := by decide +kernel

theorem ticks_quiet {s : Stel} (h : s.timer = false) : ∀ n, run s (List.replicate n .tick) = some s := by
  intro n
  induction n with
  | zero => rfl
  | succ n ih =>
    rw [List.replicate_succ, run]
    split
    · rfl
    · show (some (tick s)).bind _ = _
      have : tick s = s := by unfold tick; rw [if_pos (by simp [h])]
      rw [this, Option.bind_some, ih]

/-- A request that waits when the gensio is closed never times out after it is opened again, however
long one waits. -/
theorem C136_reopen_violated : ∃ s, run {} [.willDo true, .opn, .acontrol .dtr false (str "on") (some 1) none true, .close, .opn] = some s ∧
    s.acc = [1] ∧ s.opened = true ∧ ∀ n, ∃ t, run s (List.replicate n .tick) = some t ∧ t.cbs = [] := by
  refine ⟨_, rfl, rfl, rfl, fun n => ⟨_, ticks_quiet rfl n, rfl⟩⟩

/-- A request on a closed gensio is accepted if it was once open, and its timer does not run. -/
theorem C136_closed_accepts_violated : ∃ s, run {} [.willDo true, .opn, .close] = some s ∧ s.opened = false ∧
    (acontrol s .dtr false (str "on") (some 1) none true).2 = .ok ∧
    ∀ n, ∃ t, run (acontrol s .dtr false (str "on") (some 1) none true).1 (List.replicate n .tick) = some t ∧ t.cbs = [] := by
  refine ⟨_, rfl, rfl, by decide +kernel, fun n => ⟨_, ticks_quiet (by decide +kernel) n, by decide +kernel⟩⟩

theorem acontrol_refused (s : Stel) (h : s.doRfc = false) (k : Kind) (g : Bool) (d : List UInt8) (id : Option Nat) (t : Option (Int × Nat)) (m : Bool) :
    (acontrol s k g d id t m).1.acc = s.acc ∧ (acontrol s k g d id t m).1.doRfc = s.doRfc ∧ (acontrol s k g d id t m).1.allow = s.allow ∧
    (s.isClient = true → (acontrol s k g d id t m).2 ≠ .ok) ∧ (acontrol s k g d id t m).1.isClient = s.isClient := by
  have hq : ∀ k lo hi, queue s k lo hi id t m = (s, .notsup) := by intro k lo hi; simp [queue, h]
  have hqs : ∀ k a, (queueAndSend s k a id t m).1.acc = s.acc ∧ (queueAndSend s k a id t m).1.doRfc = s.doRfc ∧
      (queueAndSend s k a id t m).1.allow = s.allow ∧ (s.isClient = true → (queueAndSend s k a id t m).2 ≠ .ok) ∧
      (queueAndSend s k a id t m).1.isClient = s.isClient := by
    intro k a
    unfold queueAndSend
    simp only [hq]
    repeat' split
    all_goals simp_all [send]
  unfold acontrol
  split
  · simp
  · cases k
    case baud => simp only [setBaud, hq]; by_cases hc : s.isClient = true <;> simp [hc, send]
    case signature => simp only [setSig, hq]; by_cases hc : s.isClient = true <;> simp [hc, send]
    all_goals exact hqs _ _

/-- Where RFC 2217 is not allowed no request is ever taken, whatever the peer offers. -/
theorem C136_not_allowed_partial : ∀ {ops : List Op} {s s' : Stel}, s.allow = false → s.doRfc = false → run s ops = some s' →
    s'.acc = s.acc ∧ s'.doRfc = false := by
  intro ops
  induction ops with
  | nil => intro s s' _ h e; cases e; exact ⟨rfl, h⟩
  | cons o os ih =>
    intro s s' ha hd e
    rw [run] at e
    split at e
    · cases e; exact ⟨rfl, hd⟩
    · have key : ∀ s1, step s o = some s1 → s1.acc = s.acc ∧ s1.doRfc = false ∧ s1.allow = false := by
        intro s1 e1
        cases o with
        | acontrol k g d id t m =>
          cases e1
          have h := acontrol_refused s hd k g d id t m
          exact ⟨h.1, h.2.1.trans hd, h.2.2.1.trans ha⟩
        | control c d =>
          cases e1
          unfold control
          split
          · exact ⟨rfl, hd, ha⟩
          · cases c <;> exact ⟨rfl, hd, ha⟩
        | received o =>
          have hans : ∀ (s : Stel) c v g, (answer s c v g).acc = s.acc ∧ (answer s c v g).doRfc = s.doRfc ∧ (answer s c v g).allow = s.allow := by
            intro s c v g; unfold answer; split <;> exact ⟨rfl, rfl, rfl⟩
          have e2 : clientCmd s o = some s1 := e1
          unfold clientCmd at e2
          by_cases h2 : o.length < 2
          · rw [if_pos h2] at e2; cases e2; exact ⟨rfl, hd, ha⟩
          rw [if_neg h2, List.getElem?_eq_getElem (by omega : 1 < o.length), Option.bind_some] at e2
          repeat' split at e2
          all_goals first
            | (cases e2; exact ⟨rfl, hd, ha⟩)
            | (cases e2; refine ⟨(hans _ _ _ _).1, (hans _ _ _ _).2.1.trans hd, (hans _ _ _ _).2.2.trans ha⟩)
            | (cases hb : baudOf o with
               | none => rw [hb] at e2; cases e2
               | some r =>
                 rw [hb] at e2
                 simp only [Option.map_some, Option.some.injEq] at e2
                 subst e2
                 cases r with
                 | none => exact ⟨rfl, hd, ha⟩
                 | some p => exact ⟨(hans _ _ _ _).1, (hans _ _ _ _).2.1.trans hd, (hans _ _ _ _).2.2.trans ha⟩)
            | (rw [List.getElem?_eq_getElem (by omega : 2 < o.length)] at e2
               simp only [Option.map_some, Option.some.injEq] at e2
               subst e2
               repeat' split
               all_goals first
                 | exact ⟨rfl, hd, ha⟩
                 | exact ⟨(hans _ _ _ _).1, (hans _ _ _ _).2.1.trans hd, (hans _ _ _ _).2.2.trans ha⟩)
        | tick =>
          cases e1
          have hst : ∀ x : Stel, (startTimer x).acc = x.acc ∧ (startTimer x).doRfc = x.doRfc ∧ (startTimer x).allow = x.allow := by
            intro x; unfold startTimer; split <;> exact ⟨rfl, rfl, rfl⟩
          unfold tick
          split
          · exact ⟨rfl, hd, ha⟩
          · dsimp only
            split
            · refine ⟨(hst _).1, (hst _).2.1.trans hd, (hst _).2.2.trans ha⟩
            · exact ⟨rfl, hd, ha⟩
        | willDo y => cases e1; exact ⟨rfl, by simp [willDo, ha], ha⟩
        | opn => cases e1; exact ⟨rfl, hd, ha⟩
        | close => cases e1; exact ⟨rfl, hd, ha⟩
        | free => cases e1; exact ⟨rfl, hd, ha⟩
      cases e1 : step s o with
      | none => rw [e1] at e; cases e
      | some s1 =>
        rw [e1] at e
        obtain ⟨k1, k2, k3⟩ := key s1 e1
        have := ih k3 k2 e
        exact ⟨this.1.trans k1, this.2⟩

/-- The peer offers RFC 2217, the user has turned it off. -/
example : (match run { allow := false } [.willDo true, .opn, .acontrol .dtr false (str "on") (some 1) none true] with
    | some s => s.acc = [] ∧ s.sent = [] | none => false) = true := by decide +kernel

/-! ### C137: a request times out after the time asked for -/

/-- An accepted request with `m` requests before it and `l` seconds to go is answered or has timed
out once `m + l` ticks of the timer have passed, whatever else happens but closing. -/
theorem C137_timeout_partial {s s' : Stel} {pre post : List Req} {r : Req} {i : Nat} {ops : List Op}
    (ho : s.opened = true) (ht : s.timer = true) (hf : s.freed = false)
    (hr : s.reqs = pre ++ r :: post) (hi : r.id = some i) (hl : 1 ≤ r.left)
    (hops : ∀ o ∈ ops, o ≠ .close ∧ o ≠ .free) (hn : (pre.length : Int) + r.left ≤ ops.count .tick)
    (e : run s ops = some s') : ∃ c ∈ s'.cbs, c.1 = i := by
  refine Waits.run (n := ops.count .tick) ⟨pre, r, post, hr, hi, hl, hn⟩ ⟨ho, fun _ => ht, hf⟩ ?_ e (Nat.le_refl _)
  intro o h
  obtain ⟨h1, h2⟩ := hops o h
  cases o <;> simp_all [Op.stays]

/-- The requests `i` have more than `n` seconds left, or their time is no longer looked at. -/
def Late (s : Stel) (i n : Nat) : Prop := ∀ r ∈ s.reqs, r.id = some i → (n : Int) < r.left ∨ r.left ≤ 0

/-- Operations that make no request `i`. -/
def Op.spares (i : Nat) : Op → Prop
  | .acontrol _ _ _ id _ _ => id ≠ some i
  | _ => True

theorem acontrol_id {s : Stel} {k : Kind} {g : Bool} {d : List UInt8} {id : Option Nat} {t : Option (Int × Nat)} {m : Bool} :
    ∀ x ∈ (acontrol s k g d id t m).1.reqs, x ∈ s.reqs ∨ x.id = id := by
  have hq : ∀ k lo hi, ∀ x ∈ (queue s k lo hi id t m).1.reqs, x ∈ s.reqs ∨ x.id = id := by
    intro k lo hi x hx
    unfold queue at hx
    split at hx
    · exact Or.inl hx
    · split at hx
      · exact Or.inl hx
      · rw [(startTimer_spec _).1] at hx
        rcases List.mem_append.1 hx with h | h
        · exact Or.inl h
        · right; simp only [List.mem_singleton] at h; rw [h]
  intro x hx
  unfold acontrol at hx
  split at hx
  · exact Or.inl hx
  · dsimp only at hx
    split at hx
    · unfold setBaud at hx
      by_cases hc : s.isClient = true
      · simp only [hc, if_true] at hx
        split at hx
        · exact hq _ _ _ x hx
        · exact hq _ _ _ x hx
      · simp only [hc] at hx
        exact Or.inl hx
    · unfold setSig at hx
      split at hx
      · dsimp only at hx
        split at hx
        · exact hq _ _ _ x hx
        · exact hq _ _ _ x hx
      · exact Or.inl hx
    · unfold queueAndSend at hx
      split at hx
      · exact Or.inl hx
      · split at hx
        · exact Or.inl hx
        · split at hx
          · dsimp only at hx
            split at hx
            · exact hq _ _ _ x hx
            · exact hq _ _ _ x hx
          · exact Or.inl hx

theorem Late.step {s s' : Stel} {o : Op} {i n : Nat} (h : Late s i n) (ho : o.spares i) (hn : o = .tick → 1 ≤ n)
    (e : step s o = some s') : Late s' i (if o = .tick then n - 1 else n) ∧
      s'.cbs.count (i, .timedout) = s.cbs.count (i, .timedout) := by
  cases o with
  | acontrol k g d id t m =>
    cases e
    refine ⟨?_, ?_⟩
    · intro r hr hi
      rcases acontrol_id r hr with h1 | h1
      · exact h r h1 hi
      · rw [h1] at hi; exact absurd hi ho
    · cases acontrol_added s k g d id t m with
      | same _ h2 => rw [h2]
      | one _ _ _ _ _ _ h2 => rw [h2]
  | control c d =>
    cases e
    have hc : (control s c d).1.reqs = s.reqs ∧ (control s c d).1.cbs = s.cbs := by
      unfold control; split
      · exact ⟨rfl, rfl⟩
      · cases c <;> exact ⟨rfl, rfl⟩
    exact ⟨fun r hr hi => h r (by rw [← hc.1]; exact hr) hi, by rw [hc.2]⟩
  | received o =>
    cases clientCmd_answered e with
    | same h1 h2 => exact ⟨fun r hr hi => h r (by rw [← h1]; exact hr) hi, by rw [h2]⟩
    | one pre post r t h0 h1 h2 =>
      refine ⟨fun x hx hi => h x ?_ hi, ?_⟩
      · rw [h1] at hx; rw [h0]
        rcases List.mem_append.1 hx with hx | hx
        · simp [hx]
        · simp [hx]
      · rw [h2]; cases r.id <;> simp
  | tick =>
    cases e
    rw [if_pos rfl]
    have h1n := hn rfl
    show Late (tick s) i (n - 1) ∧ (tick s).cbs.count _ = _
    by_cases ht : s.timer = true
    · obtain ⟨a1, a2, _⟩ := tick_spec ht
      refine ⟨?_, ?_⟩
      · intro r hr hi
        rw [a1] at hr
        obtain ⟨y, hy, e1, e2⟩ := tickLoop_mem s.reqs r hr
        have := h y hy (by rw [e1] at hi; exact hi)
        omega
      · rw [a2, List.count_append]
        have : ((tickLoop s.reqs).2.flatMap fun r => r.id.toList.map fun i => (i, Res.timedout)).count (i, Res.timedout) = 0 := by
          rw [List.count_eq_zero]
          intro hm
          obtain ⟨x, hx, hx2⟩ := List.mem_flatMap.1 hm
          obtain ⟨hx3, hx4⟩ := tickLoop_out s.reqs x hx
          cases hid : x.id with
          | none => rw [hid] at hx2; simp at hx2
          | some j =>
            rw [hid] at hx2
            simp at hx2
            have := h x hx3 (by rw [hid, hx2])
            omega
        omega
    · have : tick s = s := by unfold tick; rw [if_pos (by simp [ht])]
      rw [this]
      refine ⟨fun r hr hi => ?_, rfl⟩
      have := h r hr hi
      omega
  | willDo y => cases e; exact ⟨h, rfl⟩
  | opn => cases e; exact ⟨h, rfl⟩
  | close => cases e; exact ⟨h, rfl⟩
  | free => cases e; exact ⟨fun r hr => by simp [free] at hr, rfl⟩

/-- No request times out before its time: while no more than `n` ticks have passed, a request with
more than `n` seconds is not reported as timed out; neither is, ever, one of zero seconds. -/
theorem C137_not_before_partial : ∀ {ops : List Op} {s s' : Stel} {i n : Nat},
    (∀ r ∈ s.reqs, r.id = some i → (n : Int) < r.left ∨ r.left ≤ 0) → (∀ o ∈ ops, o.spares i) →
    ops.count .tick ≤ n → run s ops = some s' → s'.cbs.count (i, .timedout) = s.cbs.count (i, .timedout) := by
  intro ops
  induction ops with
  | nil => intro s s' i n _ _ _ e; cases e; rfl
  | cons o os ih =>
    intro s s' i n h ho hn e
    rw [run] at e
    split at e
    · cases e; rfl
    · cases e1 : step s o with
      | none => rw [e1] at e; simp at e
      | some s1 =>
        rw [e1] at e
        rw [List.count_cons] at hn
        obtain ⟨h1, h2⟩ := Late.step (n := n) h (ho o (by simp)) (by intro hh; subst hh; simp at hn; omega) e1
        rw [← h2]
        refine ih h1 (fun o' h' => ho o' (by simp [h'])) ?_ e
        by_cases ht : o = .tick
        · subst ht; simp at hn ⊢; omega
        · rw [if_neg ht]; simpa [ht] using hn

/-- A request that is queued waits for whole seconds, as many as its timeout needs, so it does not time
out before its time; without a timeout it waits for five seconds. -/
theorem C137_rounded_up_partial (s s' : Stel) (k : Kind) (lo hi : Int) (id : Option Nat) (t : Option (Int × Nat)) (mem : Bool)
    (e : queue s k lo hi id t mem = (s', .ok)) :
    ∃ r, s'.reqs = s.reqs ++ [r] ∧ r.id = id ∧
      match t with
      | none => r.left = 5
      | some (secs, nsecs) => nsecs < 1000000000 →
        secs * 1000000000 + nsecs ≤ r.left * 1000000000 ∧ r.left * 1000000000 < secs * 1000000000 + nsecs + 1000000000 := by
  unfold queue at e
  split at e
  · cases e
  · split at e
    · cases e
    · cases e
      have hst : ∀ x : Stel, (startTimer x).reqs = x.reqs := by intro x; unfold startTimer; split <;> rfl
      rw [hst]
      refine ⟨_, rfl, rfl, ?_⟩
      cases t with
      | none => rfl
      | some p =>
        obtain ⟨secs, nsecs⟩ := p
        intro hn
        dsimp only
        have hl : leftOf (some (secs, nsecs)) = if nsecs > 0 then secs + 1 else secs := rfl
        rw [hl]
        split <;> omega

/-- A second and a bit is two seconds. -/
example : (queue client .dtr 8 9 (some 1) (some (1, 500)) true).1.reqs.map (·.left) = [2] := by decide +kernel

/-- Two requests, the second is answered, the first times out after its two seconds. -/
example : (match run client [.acontrol .dtr false (str "on") (some 1) (some (1, 500)) true, .acontrol .rts false (str "off") (some 2) none true,
      .received [44, 105, 12], .tick, .tick] with
    | some s => s.cbs = [(2, .text (str "off")), (1, .timedout)] | none => false) = true := by decide +kernel

/-- Of two requests made at once with a second each, only the first has timed out after a second: a
request that times out hides those behind it from the timer. -/
theorem C137_late_violated :
    (match run client [.acontrol .dtr false (str "on") (some 1) (some (1, 0)) true, .acontrol .rts false (str "on") (some 2) (some (1, 0)) true, .tick] with
    | some s => s.cbs = [(1, .timedout)] ∧ s.reqs.map (·.left) = [1] | none => false) = true := by decide +kernel

/-- A request with no time at all never times out. -/
theorem C137_zero_violated {s' : Stel} (n : Nat)
    (e : run client (.acontrol .dtr false (str "on") (some 1) (some (0, 0)) true :: List.replicate n .tick) = some s') :
    s'.cbs.count (1, .timedout) = 0 := by
  have e' : run (acontrol client .dtr false (str "on") (some 1) (some (0, 0)) true).1 (List.replicate n .tick) = some s' := e
  have := C137_not_before_partial (i := 1) (n := n) ?_ ?_ ?_ e'
  · rw [this]; decide +kernel
  · have : (acontrol client .dtr false (str "on") (some 1) (some (0, 0)) true).1.reqs = [⟨.dtr, 5, 7, 9, some 1, 0⟩] := by decide +kernel
    rw [this]; intro r hr _; simp only [List.mem_singleton] at hr; subst hr; right; decide
  · intro o ho; rw [List.mem_replicate] at ho; rw [ho.2]; trivial
  · simp

/-! ### Carrying an option to the other end -/

/-- What `telnet_send_option` puts on an empty queue for a serial option of at most 29 bytes reaches the
handler of the other end as it was, however the stream is cut up. -/
theorem carried (p : List UInt8) (hp : p.length ≤ 28) (hfit : (Telnet.dbl (44 :: p)).length + 4 ≤ 256) (sched : List (Nat × Nat)) :
    ∃ q rest, Telnet.feed Telnet.Rx.init ((Telnet.Tx.init [] false).sendOption (44 :: p)).cmdQ sched = some (q, rest) ∧
      (rest = [] → q.cmds.map optOf = [some (44 :: p)]) := by
  have hd : ∀ l, Telnet.dbl l = Telnet.escape l := by
    intro l
    induction l with
    | nil => rfl
    | cons b l ih => rw [Telnet.dbl, Telnet.escape_cons, ih]; unfold Telnet.escape; by_cases h : b = 255 <;> simp [h, Telnet.IAC]
  have hw : ((Telnet.Tx.init [] false).sendOption (44 :: p)).cmdQ = Telnet.wire [.sub 44 p] := by
    rw [Telnet.Tx.sendOption]
    rw [if_neg (by simp only [List.length_append, List.length_cons, List.length_nil, Telnet.Tx.init, Telnet.maxXmit]; simp; omega)]
    simp only [Telnet.Tx.init, List.take_nil, List.nil_append, Telnet.wire, List.flatMap_cons, List.flatMap_nil, Telnet.Item.wire, List.append_nil]
    rw [hd, Telnet.escape_cons]
    simp [Telnet.escape]
  obtain ⟨q, rest, h1, _, _, _, h5⟩ := Telnet.C13_receive [.sub 44 p] (by intro i hi; simp only [List.mem_singleton] at hi; subst hi; show (44 : UInt8) ≠ 255; decide) sched
  refine ⟨q, rest, by rw [hw]; exact h1, fun hr => ?_⟩
  rw [(h5 hr).2]
  simp only [Telnet.cmdsOf, List.flatMap_cons, List.flatMap_nil, Telnet.Item.cmdOf, List.append_nil, List.map_cons, List.map_nil]
  rw [List.take_of_length_le (by simp; omega)]
  unfold optOf
  rw [if_pos ⟨by simp, rfl⟩]
  rfl

/-! ### C138: the setting asked for is the one the server is told -/

/-- Controls sent as one value. -/
def Kind.single (k : Kind) : Bool := k ≠ .baud && k ≠ .signature

theorem single_bytes (k : Kind) (hk : k.single = true) : ∀ n : Fin 256, (n.val : Int) ≤ k.max →
    oneVal k.opt.toUInt8 (toByte (n.val + k.base)) = some (.set k n.val) ∧ k.opt.toUInt8 < 100 ∧
    k.opt.toUInt8 ≠ 0 ∧ k.opt.toUInt8 ≠ 1 ∧ k.opt.toUInt8 ≠ 8 ∧ k.opt.toUInt8 ≠ 9 := by
  cases k <;> first | (simp [Kind.single] at hk; done) | (decide +kernel)

theorem single_val {k : Kind} (hk : k.single = true) {v : Int} (h0 : 0 ≤ v) (h1 : v ≤ k.max) : ∃ n : Fin 256, v = n.val := by
  have : k.max < 256 := by cases k <;> decide
  exact ⟨⟨v.toNat, by omega⟩, by simp; omega⟩

theorem server_single (t : Stel) {k : Kind} (hk : k.single = true) {v : Int} (h0 : 0 ≤ v) (h1 : v ≤ k.max) :
    serverCmd t [44, k.opt.toUInt8, toByte (v + k.base)] = some (t.ev (.set k v)) := by
  obtain ⟨n, rfl⟩ := single_val hk h0 h1
  obtain ⟨a1, a2, a3, a4, a5, a6⟩ := single_bytes k hk n h1
  unfold serverCmd
  rw [if_neg (by simp)]
  simp only [List.getElem?_cons_succ, List.getElem?_cons_zero, Option.bind_some]
  rw [if_neg (by rw [UInt8.not_le]; exact a2), if_neg a3, if_neg a4, if_neg a5, if_neg a6, if_neg (by simp), Option.map_some, a1]

/-- Every setting but the baud rate and the signature: if the client accepts the value `v` for
control `k`, the server, whatever way the bytes come in, reports exactly that setting. -/
theorem C138_settings_partial (s t : Stel) (k : Kind) (hk : k ≠ .baud ∧ k ≠ .signature) (get : Bool) (data : List UInt8)
    (id : Option Nat) (timeout : Option (Int × Nat)) (mem : Bool) (hc : s.isClient = true)
    (hok : (acontrol s k get data id timeout mem).2 = .ok) (sched : List (Nat × Nat)) :
    ∃ v o, valOf k (if get then none else some data) = some v ∧ 0 ≤ v ∧ v ≤ k.max ∧
      (acontrol s k get data id timeout mem).1.sent = s.sent ++ [o] ∧
      ∃ q rest, Telnet.feed Telnet.Rx.init ((Telnet.Tx.init [] false).sendOption o).cmdQ sched = some (q, rest) ∧
        (rest = [] → q.cmds.map optOf = [some o] ∧ serverCmd t o = some { t with evs := t.evs ++ [.set k v] }) := by
  have hs : k.single = true := by unfold Kind.single; simp [hk.1, hk.2]
  have ha : acontrol s k get data id timeout mem = if s.serial then queueAndSend s k (if get then none else some data) id timeout mem else (s, .notsup) := by
    unfold acontrol
    by_cases h : s.serial = true
    · rw [if_neg (by simp [h]), if_pos h]; cases k <;> first | rfl | (exfalso; simp at hk)
    · rw [if_pos (by simpa using h), if_neg h]
  rw [ha] at hok ⊢
  by_cases h : s.serial = true
  · rw [if_pos h] at hok ⊢
    unfold queueAndSend at hok ⊢
    cases hv : valOf k (if get then none else some data) with
    | none => rw [hv] at hok; cases hok
    | some v =>
      rw [hv] at hok
      dsimp only at hok ⊢
      by_cases hb : v < 0 ∨ v > k.max
      · rw [if_pos hb] at hok; cases hok
      · rw [if_neg hb, if_pos hc] at hok ⊢
        by_cases hq : (queue s k k.base (k.base + k.max) id timeout mem).2 ≠ .ok
        · rw [if_pos hq] at hok; exact absurd hok hq
        · rw [if_neg hq]
          refine ⟨v, [44, k.opt.toUInt8, toByte (v + k.base)], rfl, by omega, by omega, ?_, ?_⟩
          · show (queue s k k.base (k.base + k.max) id timeout mem).1.sent ++ _ = _
            have : (queue s k k.base (k.base + k.max) id timeout mem).1.sent = s.sent := by
              unfold queue startTimer
              split
              · rfl
              · split
                · rfl
                · dsimp only; split <;> rfl
            rw [this]
          · obtain ⟨q, rest, h1, h2⟩ := carried [k.opt.toUInt8, toByte (v + k.base)] (by simp)
              (by simp only [Telnet.dbl]; repeat' split
                  all_goals simp) sched
            exact ⟨q, rest, h1, fun hr => ⟨h2 hr, server_single t hs (by omega) (by omega)⟩⟩
  · rw [if_neg h] at hok; cases hok

/-- Setting parity "even": the server is told parity 3. -/
example : (acontrol client .parity false (str "even") (some 1) none true).1.sent = [[44, 3, 3]] ∧
    (serverCmd { isClient := false } [44, 3, 3]).map (·.evs) = some [.set .parity 3] := by decide +kernel

/-- Setting the mask of the modem state to 255: the value travels doubled and arrives as one byte. -/
example : (acontrol client .modemMask false (str "0xff") none none true).1.sent = [[44, 11, 255]] ∧
    ((Telnet.Tx.init [] false).sendOption [44, 11, 255]).cmdQ = [255, 250, 44, 11, 255, 255, 255, 240] := by decide +kernel

theorem carried2 (a b : UInt8) (sched : List (Nat × Nat)) :
    ∃ q rest, Telnet.feed Telnet.Rx.init ((Telnet.Tx.init [] false).sendOption [44, a, b]).cmdQ sched = some (q, rest) ∧
      (rest = [] → q.cmds.map optOf = [some [44, a, b]]) := by
  refine carried [a, b] (by simp) ?_ sched
  simp only [Telnet.dbl]
  repeat' split
  all_goals simp

theorem toUInt8_mod (n : Nat) : n.toUInt8.toNat = n % 256 := by simp [Nat.toUInt8, UInt8.toNat_ofNat']

/-- The other way: modem state, line state and flow state sent by a server are the events the client
reports, of the states the lowest eight bits; they complete no request. -/
theorem C138_states_partial (s c : Stel) (data : List UInt8) (ct : Ctl) (hs : s.isClient = false) (hser : s.serial = true) (sched : List (Nat × Nat)) :
    ∃ o e, (control s ct data) = ({ s with sent := s.sent ++ [o] }, .ok) ∧
      (∃ q rest, Telnet.feed Telnet.Rx.init ((Telnet.Tx.init [] false).sendOption o).cmdQ sched = some (q, rest) ∧
        (rest = [] → q.cmds.map optOf = [some o])) ∧
      clientCmd c o = some { c with evs := c.evs ++ [e] } ∧
      match ct with
      | .modemstate | .sendModemstate => e = .modemstate (strtoul0 data % 256 : Nat)
      | .linestate | .sendLinestate => e = .linestate (strtoul0 data % 256 : Nat)
      | .flowState => (data = str "on" → e = .flowState 1) ∧ (data = str "off" → e = .flowState 0) := by
  have h2 : ∀ (a : UInt8), ∃ q rest, Telnet.feed Telnet.Rx.init ((Telnet.Tx.init [] false).sendOption [44, a]).cmdQ sched = some (q, rest) ∧
        (rest = [] → q.cmds.map optOf = [some [44, a]]) := by
    intro a
    exact carried [a] (by simp) (by simp only [Telnet.dbl]; repeat' split
                                    all_goals simp) sched
  cases ct with
  | modemstate =>
    refine ⟨[44, 107, (strtoul0 data).toUInt8], _, by simp [control, hs, hser, send], carried2 _ _ sched, ?_, rfl⟩
    simp [clientCmd, Stel.ev, toUInt8_mod]
  | sendModemstate =>
    refine ⟨[44, 107, (strtoul0 data).toUInt8], _, by simp [control, hs, hser, send], carried2 _ _ sched, ?_, rfl⟩
    simp [clientCmd, Stel.ev, toUInt8_mod]
  | linestate =>
    refine ⟨[44, 106, (strtoul0 data).toUInt8], _, by simp [control, hs, hser, send], carried2 _ _ sched, ?_, rfl⟩
    simp [clientCmd, Stel.ev, toUInt8_mod]
  | sendLinestate =>
    refine ⟨[44, 106, (strtoul0 data).toUInt8], _, by simp [control, hs, hser, send], carried2 _ _ sched, ?_, rfl⟩
    simp [clientCmd, Stel.ev, toUInt8_mod]
  | flowState =>
    by_cases h : (if data = str "true" ∨ data = str "on" then true else if data = str "false" ∨ data = str "off" then false else decide (strtoul0 data ≠ 0)) = true
    · refine ⟨[44, 108], .flowState 1, by simp only [control, hs, hser, h]; simp [send, hs, hser], h2 _, by simp [clientCmd, Stel.ev], fun _ => rfl, ?_⟩
      intro hd
      rw [hd] at h
      exact absurd h (by decide +kernel)
    · refine ⟨[44, 109], .flowState 0, by simp only [control, hs, hser, h]; simp [send, hs, hser], h2 _, by simp [clientCmd, Stel.ev], ?_, fun _ => rfl⟩
      intro hd
      rw [hd] at h
      exact absurd (by decide +kernel) h

/-- Carrier and data set ready went up: 0xa2 (hexadecimal). -/
example : (control { isClient := false } .sendModemstate (str "0xa2")).1.sent = [[44, 107, 162]] ∧
    (clientCmd client [44, 107, 162]).map (·.evs) = some [.modemstate 162] := by decide +kernel

/-- A client tells the server which modem and line states it wants to hear of; the server reports the
masks as such, their lowest eight bits. -/
theorem C138_masks_partial (s t : Stel) (data : List UInt8) (hs : s.isClient = true) (hser : s.serial = true) :
    (∃ o, control s .modemstate data = ({ s with sent := s.sent ++ [o] }, .ok) ∧
      serverCmd t o = some { t with evs := t.evs ++ [.set .modemMask (strtoul0 data % 256 : Nat)] }) ∧
    (∃ o, control s .linestate data = ({ s with sent := s.sent ++ [o] }, .ok) ∧
      serverCmd t o = some { t with evs := t.evs ++ [.set .lineMask (strtoul0 data % 256 : Nat)] }) := by
  refine ⟨⟨[44, 11, (strtoul0 data).toUInt8], by simp [control, hs, hser, send], ?_⟩,
    ⟨[44, 10, (strtoul0 data).toUInt8], by simp [control, hs, hser, send], ?_⟩⟩
  · simp [serverCmd, oneVal, Stel.ev, toUInt8_mod]
  · simp [serverCmd, oneVal, Stel.ev, toUInt8_mod]

/-- All the lines but ring. -/
example : (control client .modemstate (str "0xb0")).1.sent = [[44, 11, 176]] ∧
    (serverCmd { isClient := false } [44, 11, 176]).map (·.evs) = some [.set .modemMask 176] := by decide +kernel

/-- A client that suspends the flow is taken by the server as one that turns flow control off, and one
that resumes it as one that asks for the flow control setting; the event for the flow state exists only
in the other direction. -/
theorem C138_flow_state_violated :
    (control client .flowState (str "on")).1.sent = [[44, 8]] ∧
    (serverCmd { isClient := false } [44, 8]).map (·.evs) = some [.set .flowcontrol 1] ∧
    (control client .flowState (str "off")).1.sent = [[44, 9]] ∧
    (serverCmd { isClient := false } [44, 9]).map (·.evs) = some [.set .flowcontrol 0] ∧
    (clientCmd client [44, 108]).map (·.evs) = some [.flowState 1] := by decide +kernel

/-! ### C139: an answer completes the request it answers -/

/-- Requests as the controls make them. -/
def Wf (r : Req) : Prop :=
  r.opt = r.kind.opt ∧ r.lo = r.kind.base ∧
    r.hi = (if r.kind = .baud ∨ r.kind = .signature then 2147483647 else r.kind.base + r.kind.max)

theorem wf_step {s s' : Stel} {o : Op} (h : ∀ r ∈ s.reqs, Wf r) (e : step s o = some s') : ∀ r ∈ s'.reqs, Wf r := by
  have hadd : ∀ s', Added s s' → ∀ r ∈ s'.reqs, Wf r := by
    intro s' a
    cases a with
    | same a1 => rw [a1]; exact h
    | one k hi id left hhi a1 =>
      rw [a1]; intro r hr
      rcases List.mem_append.1 hr with hr | hr
      · exact h r hr
      · simp only [List.mem_singleton] at hr; subst hr; exact ⟨rfl, rfl, hhi⟩
  cases o with
  | acontrol k g d id t m => cases e; exact hadd _ (acontrol_added ..)
  | control c d => cases e; exact hadd _ (control_same ..)
  | received o =>
    cases clientCmd_answered e with
    | same a1 => rw [a1]; exact h
    | one pre post r t a0 a1 =>
      rw [a1]; intro x hx
      refine h x ?_
      rw [a0]
      rcases List.mem_append.1 hx with hx | hx <;> simp [hx]
  | tick =>
    cases e
    show ∀ r ∈ (tick s).reqs, Wf r
    by_cases ht : s.timer = true
    · rw [(tick_spec ht).1]
      intro r hr
      obtain ⟨y, hy, e1, _⟩ := tickLoop_mem s.reqs r hr
      have := h y hy
      rw [e1]; exact this
    · have : tick s = s := by unfold tick; rw [if_pos (by simp [ht])]
      rw [this]; exact h
  | willDo y => cases e; exact h
  | opn => cases e; exact h
  | close => cases e; exact h
  | free => cases e; intro r hr; simp [free] at hr

theorem wf_run : ∀ {ops : List Op} {s s' : Stel}, (∀ r ∈ s.reqs, Wf r) → run s ops = some s' → ∀ r ∈ s'.reqs, Wf r := by
  intro ops
  induction ops with
  | nil => intro s s' h e; cases e; exact h
  | cons o os ih =>
    intro s s' h e
    rw [run] at e
    split at e
    · cases e; exact h
    · cases e1 : step s o with
      | none => rw [e1] at e; simp at e
      | some s1 => rw [e1] at e; exact ih (wf_step h e1) e

/-- The values of different controls that share an option do not overlap. -/
theorem kinds_apart {k k' : Kind} (hk : k.single = true) (hk' : k'.single = true) (ho : k.opt = k'.opt) {v : Int}
    (h1 : k.base ≤ v ∧ v ≤ k.base + k.max) (h2 : k'.base ≤ v ∧ v ≤ k'.base + k'.max) : k = k' := by
  cases k <;> cases k' <;> simp [Kind.single, Kind.opt, Kind.base, Kind.max] at * <;> omega

theorem opt_single {k k' : Kind} (hk : k.single = true) (ho : k'.opt = k.opt) : k'.single = true := by
  cases k <;> cases k' <;> simp [Kind.single, Kind.opt] at *

theorem client_single (s : Stel) {k : Kind} (hk : k.single = true) (n : Fin 256) (hn : (n.val : Int) ≤ k.max) :
    clientCmd s [44, (k.opt + 100).toUInt8, toByte (n.val + k.base)] = some (answer s k.opt (n.val + k.base) none) := by
  have hb : ∀ m : Fin 256, (m.val : Int) ≤ k.max → ((toByte (m.val + k.base)).toNat : Int) = m.val + k.base ∧
      ¬(k.opt + 100).toUInt8 < 100 ∧ (k.opt + 100).toUInt8 ≠ 100 ∧ (k.opt + 100).toUInt8 ≠ 101 ∧ (k.opt + 100).toUInt8 ≠ 108 ∧
      (k.opt + 100).toUInt8 ≠ 109 ∧ (k.opt + 100).toUInt8 ≠ 106 ∧ (k.opt + 100).toUInt8 ≠ 107 ∧ (k.opt + 100).toUInt8.toNat - 100 = k.opt := by
    cases k <;> first | (simp [Kind.single] at hk; done) | (decide +kernel)
  obtain ⟨a0, a1, a2, a3, a4, a5, a6, a7, a8⟩ := hb n hn
  unfold clientCmd
  rw [if_neg (by simp)]
  simp only [List.getElem?_cons_succ, List.getElem?_cons_zero, Option.bind_some]
  rw [if_neg a1, if_neg a2, if_neg a3, if_neg a4, if_neg a5, if_neg (by simp), Option.map_some, if_neg a6, if_neg a7, a8, a0]

/-- The text given for a value is again text for that value. -/
theorem text_val {k : Kind} (hk : k.single = true) (r : Req) (hr : r.kind = k) (hlo : r.lo = k.base) (n : Fin 256) (hn : (n.val : Int) ≤ k.max) :
    valOf k (some (textOf r (n.val + k.base))) = some (n.val : Int) ∨ k.xlat ≠ [] ∧ ∀ p ∈ k.xlat, p.2 ≠ n.val := by
  have hb : ∀ m : Fin 256, (m.val : Int) ≤ k.max →
      valOf k (some (match k.xlat.find? (·.2 = (m.val : Int)) with | some p => p.1 | none => decInt m.val)) = some (m.val : Int) ∨
      k.xlat ≠ [] ∧ ∀ p ∈ k.xlat, p.2 ≠ m.val := by
    cases k <;> first | (simp [Kind.single] at hk; done) | (decide +kernel)
  unfold textOf
  rw [hr, hlo]
  have : (n.val : Int) + k.base - k.base = n.val := by omega
  rw [this]
  exact hb n hn

/-- In a client reached by any run: the server's answer `v` to control `k` completes the oldest
request for that control, no other, and gives it the text for `v`. -/
theorem C139_answer_partial {ops : List Op} {s : Stel} (e : run {} ops = some s) {k : Kind} (hk : k ≠ .baud ∧ k ≠ .signature)
    {v : Int} (h0 : 0 ≤ v) (h1 : v ≤ k.max) {pre post : List Req} {r : Req}
    (hr : s.reqs = pre ++ r :: post) (hrk : r.kind = k) (hpre : ∀ x ∈ pre, x.kind ≠ k) :
    ∃ s' t, clientCmd s [44, (k.opt + 100).toUInt8, toByte (v + k.base)] = some s' ∧ s'.reqs = pre ++ post ∧
      s'.cbs = s.cbs ++ r.id.toList.map (fun i => (i, .text t)) ∧
      (valOf k (some t) = some v ∨ k.xlat ≠ [] ∧ ∀ p ∈ k.xlat, p.2 ≠ v) := by
  have hs : k.single = true := by unfold Kind.single; simp [hk.1, hk.2]
  have hwf := wf_run (s := {}) (by intro r hr; cases hr) e
  obtain ⟨n, rfl⟩ := single_val hs h0 h1
  obtain ⟨w1, w2, w3⟩ := hwf r (by rw [hr]; simp)
  rw [hrk] at w1 w2 w3
  rw [if_neg (by simp [hk.1, hk.2])] at w3
  have ht : take k.opt (n.val + k.base) s.reqs = some (r, pre ++ post) := by
    rw [hr]
    refine take_split ⟨w1, by rw [w2]; omega, by rw [w3]; omega⟩ ?_
    intro x hx ⟨c1, c2, c3⟩
    obtain ⟨x1, x2, x3⟩ := hwf x (by rw [hr]; simp [hx])
    have hxs : x.kind.single = true := opt_single hs (by rw [← x1, c1])
    have hxk : ¬(x.kind = .baud ∨ x.kind = .signature) := by
      intro h; rcases h with h | h <;> rw [h] at hxs <;> simp [Kind.single] at hxs
    rw [if_neg hxk] at x3
    exact hpre x hx (kinds_apart hxs hs (by rw [← x1, c1]) (v := n.val + k.base) ⟨by rw [← x2]; exact c2, by rw [← x3]; exact c3⟩ ⟨by omega, by omega⟩)
  refine ⟨_, textOf r (n.val + k.base), client_single s hs n h1, ?_, ?_, text_val hs r hrk w2 n h1⟩
  · unfold answer; rw [ht]
  · unfold answer; rw [ht]

/-- What the server sends when its user answers `k` with text for `v` is the answer of the theorem
above, and it reaches the client as it was; the server keeps no request for it. -/
theorem C139_server_partial (s : Stel) (hs : s.isClient = false) (hser : s.serial = true) {k : Kind} (hk : k ≠ .baud ∧ k ≠ .signature)
    {v : Int} (h0 : 0 ≤ v) (h1 : v ≤ k.max) (data : List UInt8) (hv : valOf k (some data) = some v) (id : Option Nat)
    (timeout : Option (Int × Nat)) (mem : Bool) (sched : List (Nat × Nat)) :
    acontrol s k false data id timeout mem = ({ s with sent := s.sent ++ [[44, (k.opt + 100).toUInt8, toByte (v + k.base)]] }, .ok) ∧
    ∃ q rest, Telnet.feed Telnet.Rx.init ((Telnet.Tx.init [] false).sendOption [44, (k.opt + 100).toUInt8, toByte (v + k.base)]).cmdQ sched = some (q, rest) ∧
      (rest = [] → q.cmds.map optOf = [some [44, (k.opt + 100).toUInt8, toByte (v + k.base)]]) := by
  refine ⟨?_, carried2 _ _ sched⟩
  have ha : acontrol s k false data id timeout mem = queueAndSend s k (some data) id timeout mem := by
    unfold acontrol
    rw [if_neg (by simp [hser])]; cases k <;> first | rfl | (exfalso; simp at hk)
  rw [ha]
  unfold queueAndSend
  rw [hv]
  dsimp only
  rw [if_neg (by omega), if_neg (by simp [hs])]
  rfl

/-- Requests for DTR, RTS and flow control wait; the answer for RTS completes that one. -/
example : (match run client [.acontrol .dtr false (str "on") (some 1) none true, .acontrol .rts false (str "off") (some 2) none true,
      .acontrol .flowcontrol true [] (some 3) none true, .received [44, 105, 12]] with
    | some s => s.cbs = [(2, .text (str "off"))] ∧ s.reqs.map (·.kind) = [.dtr, .flowcontrol] | none => false) = true := by decide +kernel

/-- The answer to a request that has timed out completes the next request for the same control: a user
who turned DTR off is told it is on. -/
theorem C139_stale_violated :
    (match run client [.acontrol .dtr false (str "on") (some 1) (some (1, 0)) true, .tick, .acontrol .dtr false (str "off") (some 2) none true,
      .received [44, 105, 8]] with
    | some s => s.cbs = [(1, .timedout), (2, .text (str "on"))] | none => false) = true := by decide +kernel

/-! ### C140: baud rates -/

theorem toByte_nat (n : Nat) : (toByte (n : Int)).toNat = n % 256 := by
  unfold toByte
  have : ((n : Int) % 256).toNat = n % 256 := by omega
  rw [this]
  simp [Nat.toUInt8, UInt8.toNat_ofNat']

/-- A baud rate below 2^31 is told the server exactly; so are the eleven rates Cisco has values for, in
their form. -/
theorem C140_baud_partial (t : Stel) (n : Nat) (hn : n < 2147483648) :
    serverCmd t ([44, 1] ++ baudBytes n) = some { t with evs := t.evs ++ [.set .baud n] } ∧
    (∀ p ∈ cisco, serverCmd t [44, 1, (toCisco p.1).toUInt8] = some { t with cisco := true, evs := t.evs ++ [.set .baud p.1] }) := by
  refine ⟨?_, ?_⟩
  · have d1 : ((n : Int) / 16777216) = ((n / 16777216 : Nat) : Int) := by omega
    have d2 : ((n : Int) / 65536) = ((n / 65536 : Nat) : Int) := by omega
    have d3 : ((n : Int) / 256) = ((n / 256 : Nat) : Int) := by omega
    have hb : baudVal (toByte ((n : Int) / 16777216)) (toByte ((n : Int) / 65536)) (toByte ((n : Int) / 256)) (toByte n) = some (n : Int) := by
      rw [d1, d2, d3]
      unfold baudVal
      rw [if_neg (by rw [ge_iff_le, UInt8.le_iff_toNat_le, toByte_nat]; simp; omega)]
      rw [toByte_nat, toByte_nat, toByte_nat, toByte_nat]
      congr 1; omega
    unfold serverCmd baudBytes
    rw [if_neg (by simp)]
    simp only [List.cons_append, List.nil_append, List.getElem?_cons_succ, List.getElem?_cons_zero, Option.bind_some]
    rw [if_neg (by decide), if_neg (by decide), if_pos trivial]
    unfold baudOf
    rw [if_neg (by simp)]
    simp only [List.getElem?_cons_succ, List.getElem?_cons_zero, Option.bind_some]
    rw [if_neg (by simp), hb]
    simp [Stel.ev]
  · intro p hp
    have hc : ∀ p ∈ cisco, baudOf [44, 1, (toCisco p.1).toUInt8] = some (some (p.1, true)) := by decide +kernel
    unfold serverCmd
    rw [if_neg (by simp)]
    simp only [List.getElem?_cons_succ, List.getElem?_cons_zero, Option.bind_some]
    rw [if_neg (by decide), if_neg (by decide), if_pos trivial, hc p hp]
    simp [Stel.ev]

/-- A client that sets a rate, to a peer that does not use the values of Cisco, sends those bytes; the
server's answer with the rate `n` completes the oldest request for the baud rate with its decimal text. -/
theorem C140_set_partial (s : Stel) (hc : s.isClient = true) (hser : s.serial = true) (hci : s.cisco = false) (get : Bool) (data : List UInt8)
    (id : Option Nat) (timeout : Option (Int × Nat)) (mem : Bool) (hok : (acontrol s .baud get data id timeout mem).2 = .ok)
    {ops : List Op} {c : Stel} (e : run {} ops = some c) {pre post : List Req} {r : Req} (hr : c.reqs = pre ++ r :: post)
    (hrk : r.kind = .baud) (hpre : ∀ x ∈ pre, x.kind ≠ .baud) (n : Nat) (hn : n < 2147483648) :
    (acontrol s .baud get data id timeout mem).1.sent = s.sent ++ [[44, 1] ++ baudBytes (if get then 0 else toInt (strtoul0 data))] ∧
    ∃ c', clientCmd c ([44, 101] ++ baudBytes n) = some c' ∧ c'.reqs = pre ++ post ∧
      c'.cbs = c.cbs ++ r.id.toList.map (fun i => (i, .text (CLib.dec n))) := by
  refine ⟨?_, ?_⟩
  · have hsent : (queue s .baud 0 0 id timeout mem).1.sent = s.sent := by
      unfold queue startTimer
      split
      · rfl
      · split
        · rfl
        · dsimp only; split <;> rfl
    have ha : acontrol s .baud get data id timeout mem = setBaud s (if get then none else some data) id timeout mem := by
      unfold acontrol; rw [if_neg (by simp [hser])]
    rw [ha] at hok ⊢
    unfold setBaud at hok ⊢
    simp only [hc, if_true, hci] at hok ⊢
    split at hok
    · rename_i h; exact absurd hok h
    · rename_i h
      rw [if_neg h]
      show (queue s .baud 0 0 id timeout mem).1.sent ++ _ = _
      rw [hsent]
      cases get <;> rfl
  · have hwf := wf_run (s := {}) (by intro r hr; cases hr) e
    obtain ⟨w1, w2, w3⟩ := hwf r (by rw [hr]; simp)
    rw [hrk] at w1 w2 w3
    rw [if_pos (Or.inl rfl)] at w3
    have ht : take 1 n c.reqs = some (r, pre ++ post) := by
      rw [hr]
      refine take_split ⟨w1, by rw [w2]; show (0 : Int) ≤ n; omega, by rw [w3]; omega⟩ ?_
      intro x hx ⟨c1, c2, c3⟩
      obtain ⟨x1, x2, x3⟩ := hwf x (by rw [hr]; simp [hx])
      rw [x1] at c1
      refine hpre x hx ?_
      cases hxk : x.kind <;> rw [hxk] at c1 <;> simp [Kind.opt] at c1
    have d1 : ((n : Int) / 16777216) = ((n / 16777216 : Nat) : Int) := by omega
    have d2 : ((n : Int) / 65536) = ((n / 65536 : Nat) : Int) := by omega
    have d3 : ((n : Int) / 256) = ((n / 256 : Nat) : Int) := by omega
    have hb : baudVal (toByte ((n : Int) / 16777216)) (toByte ((n : Int) / 65536)) (toByte ((n : Int) / 256)) (toByte n) = some (n : Int) := by
      rw [d1, d2, d3]
      unfold baudVal
      rw [if_neg (by rw [ge_iff_le, UInt8.le_iff_toNat_le, toByte_nat]; simp; omega)]
      rw [toByte_nat, toByte_nat, toByte_nat, toByte_nat]
      congr 1; omega
    have hcl : clientCmd c ([44, 101] ++ baudBytes n) = some (answer { c with cisco := c.cisco || false } 1 n none) := by
      unfold clientCmd baudBytes
      rw [if_neg (by simp)]
      simp only [List.cons_append, List.nil_append, List.getElem?_cons_succ, List.getElem?_cons_zero, Option.bind_some]
      rw [if_neg (by decide), if_neg (by decide), if_pos trivial]
      unfold baudOf
      rw [if_neg (by simp)]
      simp only [List.getElem?_cons_succ, List.getElem?_cons_zero, Option.bind_some]
      rw [if_neg (by simp), hb]
      rfl
    refine ⟨_, hcl, ?_, ?_⟩
    · unfold answer; dsimp only; rw [ht]
    · unfold answer; dsimp only; rw [ht]
      dsimp only
      have : textOf r n = CLib.dec n := by
        unfold textOf
        have hx : (Kind.baud).xlat = [] := rfl
        rw [hrk, hx, w2]
        show decInt ((n : Int) - 0) = _
        unfold decInt
        rw [if_neg (by omega)]
        congr 1
      rw [this]

/-- 115200. -/
example : (acontrol client .baud false (str "115200") none none true).1.sent = [[44, 1, 0, 1, 194, 0]] ∧
    (serverCmd { isClient := false } [44, 1, 0, 1, 194, 0]).map (·.evs) = some [.set .baud 115200] := by decide +kernel

theorem baudOf_fault {o : List UInt8} (h : baudOf o = none) : 6 ≤ o.length ∧ ∃ b, o[2]? = some b ∧ 128 ≤ b := by
  unfold baudOf at h
  split at h
  · cases h
  · rename_i h3
    have e2 : o[2]? = some o[2] := List.getElem?_eq_getElem (by omega)
    rw [e2, Option.bind_some] at h
    split at h
    · cases h
    · rename_i h6
      rw [List.getElem?_eq_getElem (by omega : 3 < o.length), List.getElem?_eq_getElem (by omega : 4 < o.length),
        List.getElem?_eq_getElem (by omega : 5 < o.length)] at h
      simp only [Option.bind_some] at h
      unfold baudVal at h
      split at h
      · rename_i hb
        exact ⟨by omega, _, e2, hb⟩
      · cases h

/-- No option makes a client or a server read past its end, however short it is: the only fault is the
sum of a rate of four bytes whose first is 128 or more. -/
theorem C140_bounds_partial (t : Stel) (o : List UInt8)
    (h : ∀ b, o[2]? = some b → 128 ≤ b → o.length < 6) :
    (∃ t', serverCmd t o = some t') ∧ (∃ t', clientCmd t o = some t') := by
  have hb : ∃ r, baudOf o = some r := by
    cases e : baudOf o with
    | some r => exact ⟨r, rfl⟩
    | none =>
      obtain ⟨h6, b, e2, hb⟩ := baudOf_fault e
      exact absurd (h b e2 hb) (by omega)
  obtain ⟨r, hb⟩ := hb
  refine ⟨?_, ?_⟩
  · unfold serverCmd
    by_cases h2 : o.length < 2
    · exact ⟨_, if_pos h2⟩
    rw [if_neg h2, List.getElem?_eq_getElem (by omega : 1 < o.length), Option.bind_some]
    repeat' split
    all_goals first
      | exact ⟨_, rfl⟩
      | (rw [hb]; exact ⟨_, rfl⟩)
      | (rw [List.getElem?_eq_getElem (by omega : 2 < o.length)]; exact ⟨_, rfl⟩)
  · unfold clientCmd
    by_cases h2 : o.length < 2
    · exact ⟨_, if_pos h2⟩
    rw [if_neg h2, List.getElem?_eq_getElem (by omega : 1 < o.length), Option.bind_some]
    repeat' split
    all_goals first
      | exact ⟨_, rfl⟩
      | (rw [hb]; exact ⟨_, rfl⟩)
      | (rw [List.getElem?_eq_getElem (by omega : 2 < o.length)]; exact ⟨_, rfl⟩)

/-- Five bytes are taken for the form of Cisco, two for nothing. -/
example : (serverCmd { isClient := false } [44, 1, 8, 0, 0]).map (·.evs) = some [.set .baud 9600] ∧
    (serverCmd { isClient := false } [44, 1]).map (·.evs) = some [] := by decide +kernel

/-- The four bytes of a peer are put together in a signed int: with a first byte of 128 or more that is
undefined, for a client and a server. -/
theorem C140_shift_violated (t : Stel) (b0 b1 b2 b3 : UInt8) (h : 128 ≤ b0) :
    serverCmd t [44, 1, b0, b1, b2, b3] = none ∧ clientCmd t [44, 101, b0, b1, b2, b3] = none := by
  have hb : ∀ c, baudOf [44, c, b0, b1, b2, b3] = none := by
    intro c
    unfold baudOf baudVal
    rw [if_neg (by simp)]
    simp only [List.getElem?_cons_succ, List.getElem?_cons_zero, Option.bind_some]
    rw [if_neg (by simp), if_pos h]; rfl
  refine ⟨?_, ?_⟩
  · unfold serverCmd
    rw [if_neg (by simp)]
    simp only [List.getElem?_cons_succ, List.getElem?_cons_zero, Option.bind_some]
    rw [if_neg (by decide), if_neg (by decide), if_pos trivial, hb]; rfl
  · unfold clientCmd
    rw [if_neg (by simp)]
    simp only [List.getElem?_cons_succ, List.getElem?_cons_zero, Option.bind_some]
    rw [if_neg (by decide), if_neg (by decide), if_pos trivial, hb]; rfl

/-- To a peer that uses the values of Cisco a rate without one, such as 110, is sent as 0: the user's
setting becomes a question and the answer is reported as success. -/
theorem C140_cisco_violated :
    (match run client [.received [44, 101, 8], .acontrol .baud false (str "110") (some 1) none true, .received [44, 101, 8]] with
    | some s => s.sent = [[44, 1, 0]] ∧ s.cbs = [(1, .text (str "9600"))] | none => false) = true := by decide +kernel

/-! ### C142: window size -/

/-- A window size none of whose four bytes is 255 reaches the other end as it was. -/
theorem C142_window_partial (w h : Nat) (hw : w < 65536) (hh : h < 65536)
    (h255 : w / 256 ≠ 255 ∧ w % 256 ≠ 255 ∧ h / 256 ≠ 255 ∧ h % 256 ≠ 255) (sched : List (Nat × Nat)) :
    ∃ q rest, Telnet.feed Telnet.Rx.init (nawsSend w h) sched = some (q, rest) ∧
      (rest = [] → ∃ o, q.cmds.map optOf = [some o] ∧ nawsRecv o = some (some (w, h))) := by
  have e255 : ∀ n : Nat, n % 256 ≠ 255 → n.toUInt8 ≠ 255 := by
    intro n hn hc
    have := congrArg UInt8.toNat hc
    simp [Nat.toUInt8, UInt8.toNat_ofNat'] at this
    omega
  have t8 : ∀ n : Nat, n.toUInt8.toNat = n % 256 := by intro n; simp [Nat.toUInt8, UInt8.toNat_ofNat']
  have hwire : nawsSend w h = Telnet.wire [.sub 31 [(w / 256).toUInt8, w.toUInt8, (h / 256).toUInt8, h.toUInt8]] := by
    unfold nawsSend Telnet.wire Telnet.Item.wire Telnet.escape
    simp [e255 (w / 256) (by omega), e255 w h255.2.1, e255 (h / 256) (by omega), e255 h h255.2.2.2]
  obtain ⟨q, rest, h1, _, _, _, h5⟩ := Telnet.C13_receive [.sub 31 [(w / 256).toUInt8, w.toUInt8, (h / 256).toUInt8, h.toUInt8]]
    (by intro i hi; simp only [List.mem_singleton] at hi; subst hi; show (31 : UInt8) ≠ 255; decide) sched
  refine ⟨q, rest, by rw [hwire]; exact h1, fun hr => ⟨[31, (w / 256).toUInt8, w.toUInt8, (h / 256).toUInt8, h.toUInt8], ?_, ?_⟩⟩
  · rw [(h5 hr).2]; rfl
  · unfold nawsRecv
    simp only [List.length_cons, List.length_nil, List.getElem?_cons_succ, List.getElem?_cons_zero]
    simp [t8]
    omega

/-- 80 by 25. -/
example : nawsSend 80 25 = [255, 250, 31, 0, 80, 0, 25, 255, 240] ∧ nawsRecv [31, 0, 80, 0, 25] = some (some (80, 25)) := by decide +kernel

/-- A width of 255 is sent with the byte not doubled; the other end is told nothing: it takes the byte
and the next one out, and what is left is too short. -/
theorem C142_255_violated :
    (match Telnet.feed Telnet.Rx.init (nawsSend 255 25) [(100, 100)] with
    | some (q, rest) => q.cmds.map optOf = [some [31, 0, 25]] ∧ rest = [] ∧ nawsRecv [31, 0, 25] = some none | none => false) = true := by
  decide +kernel

/-- With a height of 240 to 255 times 256 behind it the end of the option is seen early and the rest
comes out as data the user reads. -/
theorem C142_data_violated :
    (match Telnet.feed Telnet.Rx.init (nawsSend 255 61465) [(5, 100), (100, 100), (100, 100), (100, 100)] with
    | some (q, rest) => q.cmds.map optOf = [some [31, 0], none] ∧ rest = [] ∧ q.out = [25] | none => false) = true := by
  decide +kernel

/-! ### C144: the two halves agree which end is the client -/

/-- They agree if the arguments name a mode, or if no default for it is configured and the gensio is made
as a client; accepters always name one. -/
theorem C144_mode_partial (cfg : Option Bool) (d : Bool) (args : List Bool) (h : args ≠ [] ∨ (cfg = none ∧ d = true)) :
    stelMode d args = filtMode cfg args ∧ (∀ m ∈ args.getLast?, filtMode cfg args = m) := by
  have key : ∀ (l : List Bool) (a b : Bool), l ≠ [] → modeArgs a l = modeArgs b l := by
    intro l
    cases l with
    | nil => intro a b h; exact absurd rfl h
    | cons m ms => intro a b _; rfl
  have last : ∀ (l : List Bool) (a : Bool), ∀ m ∈ l.getLast?, modeArgs a l = m := by
    intro l
    induction l with
    | nil => intro a m hm; simp at hm
    | cons x xs ih =>
      intro a m hm
      rw [modeArgs]
      cases xs with
      | nil => simp at hm; simp [modeArgs, hm]
      | cons y ys => exact ih x m (by simpa using hm)
  refine ⟨?_, fun m hm => last _ _ m hm⟩
  rcases h with h | ⟨rfl, rfl⟩
  · exact key _ _ _ h
  · rfl

/-- A server asked for in the arguments. -/
example : stelMode true [false] = false ∧ filtMode none [false] = false := by decide

/-- With "server" configured as the default mode a gensio without a mode argument negotiates as a server
and handles RFC 2217 as a client. -/
theorem C144_default_violated : stelMode true [] = true ∧ filtMode (some false) [] = false := by decide

/-! ### C146: a value that means nothing is refused -/

/-- Controls with a table of names refuse every other text, and all refuse a number out of range; the
refusal leaves no request and sends nothing. -/
theorem C146_refused_partial (s : Stel) (k : Kind) (hk : k ≠ .baud ∧ k ≠ .signature) (data : List UInt8) (id : Option Nat)
    (timeout : Option (Int × Nat)) (mem : Bool)
    (h : (k.xlat ≠ [] ∧ ∀ p ∈ k.xlat, p.1 ≠ data) ∨ (k.xlat = [] ∧ (toInt (strtoul0 data) < 0 ∨ k.max < toInt (strtoul0 data)))) :
    (acontrol s k false data id timeout mem).2 ≠ .ok ∧ (acontrol s k false data id timeout mem).1 = s := by
  have hq : queueAndSend s k (some data) id timeout mem = (s, .inval) := by
    unfold queueAndSend
    rcases h with ⟨h1, h2⟩ | ⟨h1, h2⟩
    · have : valOf k (some data) = none := by
        unfold valOf
        dsimp only
        rw [if_pos h1]
        have : k.xlat.find? (·.1 = data) = none := by
          rw [List.find?_eq_none]; intro p hp; simpa using h2 p hp
        simp only [this, Option.map_none]
      rw [this]
    · have : valOf k (some data) = some (toInt (strtoul0 data)) := by
        unfold valOf; dsimp only; rw [if_neg (by simp [h1])]
      rw [this]
      dsimp only
      rw [if_pos (by omega)]
  have ha : acontrol s k false data id timeout mem = if s.serial then queueAndSend s k (some data) id timeout mem else (s, .notsup) := by
    unfold acontrol
    by_cases h : s.serial = true
    · rw [if_neg (by simp [h]), if_pos h]; cases k <;> first | rfl | (exfalso; simp at hk)
    · rw [if_pos (by simpa using h), if_neg h]
  rw [ha]
  split
  · rw [hq]; exact ⟨by simp, rfl⟩
  · exact ⟨by simp, rfl⟩

/-- "oddd" is no parity, 9 no data size. -/
example : (acontrol client .parity false (str "oddd") (some 1) none true).2 = .inval ∧
    (acontrol client .datasize false (str "9") (some 1) none true).2 = .inval := by decide +kernel

/-- For controls without names any text is taken as a number: "seven" as 0, which asks for the data size
instead of setting it, and 4294967303 as 7. -/
theorem C146_number_violated :
    (acontrol client .datasize false (str "seven") (some 1) none true).2 = .ok ∧
    (acontrol client .datasize false (str "seven") (some 1) none true).1.sent = [[44, 2, 0]] ∧
    (acontrol client .datasize false (str "4294967303") (some 1) none true).1.sent = [[44, 2, 7]] := by decide +kernel

/-! ### C147: asking for a setting does not change it -/

/-- But for the two masks (and the flush, which is no setting), what is sent to ask for a setting is not
what is sent to set it to one of its values. -/
theorem C147_get_partial (s t : Stel) (k : Kind) (hk : k ≠ .baud ∧ k ≠ .signature ∧ k ≠ .modemMask ∧ k ≠ .lineMask)
    (v : Int) (h1 : 1 ≤ v) (h2 : v ≤ k.max) :
    serverCmd t [44, k.opt.toUInt8, toByte (v + k.base)] ≠ serverCmd t [44, k.opt.toUInt8, toByte (0 + k.base)] ∧
    (s.serial = true → s.doRfc = true → s.isClient = true → ∀ id timeout,
      (acontrol s k true [] id timeout true).1.sent = s.sent ++ [[44, k.opt.toUInt8, toByte (0 + k.base)]]) := by
  have hs : k.single = true := by unfold Kind.single; simp [hk.1, hk.2.1]
  have h0 : 0 ≤ k.max := by cases k <;> decide
  refine ⟨?_, ?_⟩
  · rw [server_single t hs (by omega) h2, server_single t hs (Int.le_refl 0) h0]
    intro h
    simp only [Stel.ev, Option.some.injEq, Stel.mk.injEq, List.append_cancel_left_eq, List.cons.injEq, Ev.set.injEq, and_true, true_and] at h
    omega
  · intro g1 g2 g3 id timeout
    have ha : acontrol s k true [] id timeout true = queueAndSend s k none id timeout true := by
      unfold acontrol
      rw [if_neg (by simp [g1])]; cases k <;> first | rfl | (exfalso; simp at hk)
    rw [ha]
    unfold queueAndSend valOf
    dsimp only
    rw [if_neg (by omega), if_pos g3]
    have hq : queue s k k.base (k.base + k.max) id timeout true = (startTimer { s with reqs := s.reqs ++ [⟨k, k.opt, k.base, if k.base + k.max = 0 then 2147483647 else k.base + k.max, id, leftOf timeout⟩], acc := s.acc ++ id.toList }, .ok) := by
      unfold queue; rw [if_neg (by simp [g2]), if_neg (by simp)]
    rw [hq]
    rw [if_neg (by simp)]
    have hst : ∀ x : Stel, (startTimer x).sent = x.sent := by
      intro x; unfold startTimer; split <;> rfl
    show (startTimer _).sent ++ _ = _
    rw [hst]

/-- Asking for the parity. -/
example : (acontrol client .parity true [] (some 1) none true).1.sent = [[44, 3, 0]] := by decide +kernel

/-- Asking for the mask of the modem state sets it to 0: the server stops reporting the modem state. -/
theorem C147_mask_violated :
    (acontrol client .modemMask true [] (some 1) none true).1.sent = (acontrol client .modemMask false (str "0") (some 1) none true).1.sent ∧
    (acontrol client .modemMask true [] (some 1) none true).1.sent = [[44, 11, 0]] ∧
    (serverCmd { isClient := false } [44, 11, 0]).map (·.evs) = some [.set .modemMask 0] := by decide +kernel

/-! ### C148: the signature -/

/-- A signature of at most 27 bytes without a NUL is what the client's callback is given. -/
theorem C148_signature_partial (s : Stel) (sig : List UInt8) (hl : sig.length ≤ 27) (h0 : ∀ b ∈ sig, b ≠ 0) (hc : s.isClient = false)
    (hser : s.serial = true) (sched : List (Nat × Nat)) (c : Stel) (r : Req) (rs : List Req) (i : Nat)
    (hreq : c.reqs = r :: rs) (hr : r.opt = 0 ∧ r.lo = 0 ∧ r.hi = 2147483647 ∧ r.id = some i) :
    ∃ o, (acontrol s .signature false sig none none true).1.sent = s.sent ++ [o] ∧
      ∃ q rest, Telnet.feed Telnet.Rx.init ((Telnet.Tx.init [] false).sendOption o).cmdQ sched = some (q, rest) ∧
        (rest = [] → q.cmds.map optOf = [some o] ∧
          ∃ c', clientCmd c o = some c' ∧ c'.cbs = c.cbs ++ [(i, .text sig)] ∧ c'.reqs = rs) := by
  have hmin : min sig.length (Telnet.maxXmit - 2) = sig.length := by simp [Telnet.maxXmit]; omega
  have hcopy : strncpy sig sig.length = sig := by
    unfold strncpy
    have : (sig.take sig.length).takeWhile (· ≠ 0) = sig := by
      rw [List.take_length]
      clear hl hmin
      induction sig with
      | nil => rfl
      | cons b l ih =>
        rw [List.takeWhile_cons, if_pos (by simpa using h0 b (by simp)), ih (fun a ha => h0 a (by simp [ha]))]
    dsimp only; rw [this]; simp
  refine ⟨44 :: 100 :: sig, ?_, ?_⟩
  · unfold acontrol setSig
    rw [if_neg (by simp [hser])]
    simp only [hc]
    show s.sent ++ [_] = _
    simp [hmin, hcopy]
  · have hdl : ∀ l : List UInt8, (Telnet.dbl l).length ≤ 2 * l.length := by
      intro l
      induction l with
      | nil => simp [Telnet.dbl]
      | cons b l ih => rw [Telnet.dbl]; split <;> simp <;> omega
    obtain ⟨q, rest, h1, h2⟩ := carried (100 :: sig) (by simp; omega) (by have := hdl (44 :: 100 :: sig); simp at this; omega) sched
    refine ⟨q, rest, h1, fun hrest => ⟨h2 hrest, ?_⟩⟩
    have ht : take 0 0 c.reqs = some (r, rs) := by
      rw [hreq, take, if_pos ⟨hr.1, by rw [hr.2.1]; decide, by rw [hr.2.2.1]; decide⟩]
    refine ⟨answer c 0 0 (some sig), ?_, ?_, ?_⟩
    · unfold clientCmd
      rw [if_neg (by simp)]
      simp only [List.getElem?_cons_succ, List.getElem?_cons_zero, Option.bind_some]
      rw [if_neg (by decide), if_pos trivial]
      rfl
    · unfold answer; rw [ht]; simp [hr.2.2.2]
    · unfold answer; rw [ht]

/-- The client asks for the signature. -/
example : (match run client [.acontrol .signature true [] (some 1) none true, .received ([44, 100] ++ str "gensio")] with
    | some s => s.cbs = [(1, .text (str "gensio"))] | none => false) = true := by decide +kernel

/-- A longer signature is cut at 27 bytes. -/
theorem C148_cut_violated :
    (match Telnet.feed Telnet.Rx.init ((Telnet.Tx.init [] false).sendOption ([44, 100] ++ List.replicate 30 65)).cmdQ [(300, 300)] with
    | some (q, rest) => q.cmds.map optOf = [some ([44, 100] ++ List.replicate 27 65)] ∧ rest = [] | none => false) = true := by decide +kernel

/-- One of 251 bytes or more, though cut by the code to 254 so as to fit, never fits and nothing is
sent, whatever is in it. -/
theorem C148_lost_violated (sig : List UInt8) (h : 251 ≤ sig.length) (t : Telnet.Tx) :
    t.sendOption ([44, 100] ++ strncpy sig (min sig.length (Telnet.maxXmit - 2))) = t := by
  have hdl : ∀ l : List UInt8, l.length ≤ (Telnet.dbl l).length := by
    intro l
    induction l with
    | nil => simp
    | cons b l ih => rw [Telnet.dbl]; split <;> simp <;> omega
  have hn : (strncpy sig (min sig.length (Telnet.maxXmit - 2))).length = min sig.length (Telnet.maxXmit - 2) := by
    unfold strncpy
    have : ((sig.take (min sig.length (Telnet.maxXmit - 2))).takeWhile (· ≠ 0)).length ≤ min sig.length (Telnet.maxXmit - 2) :=
      Nat.le_trans (List.takeWhile_prefix _).length_le (by simp)
    simp only [List.length_append, List.length_replicate]
    omega
  rw [Telnet.Tx.sendOption]
  rw [if_pos]
  have := hdl ([44, 100] ++ strncpy sig (min sig.length (Telnet.maxXmit - 2)))
  simp only [List.length_append, List.length_cons, List.length_nil, hn] at this ⊢
  simp only [Telnet.maxXmit] at this ⊢
  omega

end Gensio.Rfc2217
