import Verif.Model.Rfc2217
/-!
# Lemmas on the RFC 2217 requests
-/
namespace Gensio.Rfc2217

/-- The callbacks waiting in a list of requests. -/
def ids (rs : List Req) : List Nat := rs.flatMap fun r => r.id.toList

theorem take_some {cmd : Nat} {v : Int} : ∀ {rs : List Req} {r : Req} {rs' : List Req}, take cmd v rs = some (r, rs') →
    ∃ pre post, rs = pre ++ r :: post ∧ rs' = pre ++ post ∧ r.opt = cmd ∧ r.lo ≤ v ∧ v ≤ r.hi ∧
      ∀ x ∈ pre, ¬(x.opt = cmd ∧ x.lo ≤ v ∧ v ≤ x.hi) := by
  intro rs
  induction rs with
  | nil => intro r rs' h; simp [take] at h
  | cons a rs ih =>
    intro r rs' h
    rw [take] at h
    by_cases c : a.opt = cmd ∧ a.lo ≤ v ∧ v ≤ a.hi
    · rw [if_pos c] at h
      simp only [Option.some.injEq, Prod.mk.injEq] at h
      obtain ⟨rfl, rfl⟩ := h
      exact ⟨[], _, rfl, rfl, c.1, c.2.1, c.2.2, by simp⟩
    · rw [if_neg c] at h
      cases ht : take cmd v rs with
      | none => rw [ht] at h; simp at h
      | some p =>
        obtain ⟨r1, rs1⟩ := p
        rw [ht] at h
        simp only [Option.map_some, Option.some.injEq, Prod.mk.injEq] at h
        obtain ⟨rfl, rfl⟩ := h
        obtain ⟨pre, post, h1, h2, h3, h4, h5, h6⟩ := ih ht
        refine ⟨a :: pre, post, by simp [h1], by simp [h2], h3, h4, h5, ?_⟩
        intro x hx
        rcases List.mem_cons.1 hx with rfl | hx
        · exact c
        · exact h6 x hx

theorem take_split {cmd : Nat} {v : Int} {r : Req} {post : List Req} (hr : r.opt = cmd ∧ r.lo ≤ v ∧ v ≤ r.hi) :
    ∀ {pre : List Req}, (∀ x ∈ pre, ¬(x.opt = cmd ∧ x.lo ≤ v ∧ v ≤ x.hi)) →
      take cmd v (pre ++ r :: post) = some (r, pre ++ post) := by
  intro pre
  induction pre with
  | nil => intro _; rw [List.nil_append, take, if_pos hr]; rfl
  | cons a pre ih =>
    intro h
    rw [List.cons_append, take, if_neg (h a (by simp)), ih (fun x hx => h x (by simp [hx]))]
    rfl

theorem tickLoop_ids (i : Nat) (rs : List Req) :
    (ids rs).count i = (ids (tickLoop rs).1).count i + (ids (tickLoop rs).2).count i := by
  induction rs with
  | nil => rfl
  | cons r rs ih =>
    rw [tickLoop]
    split
    · simp [ids]; omega
    · simp only [ids, List.flatMap_cons, List.count_append] at ih ⊢
      omega

/-- Where a request is after the loop of the timeout: it timed out, or it is one place or one second
nearer to that. -/
theorem tickLoop_at (r : Req) (post : List Req) (hl : 1 ≤ r.left) : ∀ pre : List Req,
    r ∈ (tickLoop (pre ++ r :: post)).2 ∨
    ∃ pre' r' post', (tickLoop (pre ++ r :: post)).1 = pre' ++ r' :: post' ∧ r'.id = r.id ∧ 1 ≤ r'.left ∧
      (pre'.length : Int) + r'.left + 1 = pre.length + r.left := by
  intro pre
  induction pre with
  | nil =>
    rw [List.nil_append, tickLoop]
    by_cases c : r.left - 1 = 0
    · rw [if_pos c]; left; simp
    · rw [if_neg c]
      exact Or.inr ⟨[], { r with left := r.left - 1 }, (tickLoop post).1, rfl, rfl, by simp only; omega, by simp only [List.length_nil]; omega⟩
  | cons a pre ih =>
    rw [List.cons_append, tickLoop]
    by_cases c : a.left - 1 = 0
    · rw [if_pos c]
      exact Or.inr ⟨pre, r, post, rfl, rfl, hl, by simp only [List.length_cons]; omega⟩
    · rw [if_neg c]
      rcases ih with h | ⟨pre', r', post', h1, h2, h3, h4⟩
      · exact Or.inl h
      · refine Or.inr ⟨{ a with left := a.left - 1 } :: pre', r', post', by simp [h1], h2, h3, ?_⟩
        simp only [List.length_cons]; omega

/-- What the loop keeps is what was there, a second older or as it was. -/
theorem tickLoop_mem (rs : List Req) : ∀ x ∈ (tickLoop rs).1, ∃ y ∈ rs, x = { y with left := x.left } ∧
    (x.left = y.left ∨ x.left = y.left - 1) := by
  induction rs with
  | nil => intro x hx; simp [tickLoop] at hx
  | cons a rs ih =>
    intro x hx
    rw [tickLoop] at hx
    split at hx
    · exact ⟨x, List.mem_cons_of_mem _ hx, rfl, Or.inl rfl⟩
    · rcases List.mem_cons.1 hx with rfl | hx
      · exact ⟨a, by simp, rfl, Or.inr rfl⟩
      · obtain ⟨y, hy, h1, h2⟩ := ih x hx
        exact ⟨y, List.mem_cons_of_mem _ hy, h1, h2⟩

theorem tickLoop_out (rs : List Req) : ∀ x ∈ (tickLoop rs).2, x ∈ rs ∧ x.left = 1 := by
  induction rs with
  | nil => intro x hx; simp [tickLoop] at hx
  | cons a rs ih =>
    intro x hx
    rw [tickLoop] at hx
    split at hx
    · rename_i h; simp only [List.mem_singleton] at hx; subst hx; exact ⟨by simp, by omega⟩
    · obtain ⟨h1, h2⟩ := ih x hx; exact ⟨by simp [h1], h2⟩

/-- All a step other than the ones for requests changes is outside the lists of requests and
callbacks. -/
theorem send_reqs (s : Stel) (o : List UInt8) : (send s o).reqs = s.reqs ∧ (send s o).cbs = s.cbs ∧ (send s o).acc = s.acc ∧
    (send s o).dropped = s.dropped ∧ (send s o).opened = s.opened ∧ (send s o).timer = s.timer ∧ (send s o).freed = s.freed :=
  ⟨rfl, rfl, rfl, rfl, rfl, rfl, rfl⟩

/-- What an accepted request adds. -/
inductive Added (s s' : Stel) : Prop
  | same (h1 : s'.reqs = s.reqs) (h2 : s'.cbs = s.cbs) (h3 : s'.acc = s.acc) (h4 : s'.dropped = s.dropped)
      (h5 : s'.opened = s.opened) (h6 : s'.timer = s.timer) (h7 : s'.freed = s.freed)
  | one (k : Kind) (hi : Int) (id : Option Nat) (left : Int)
      (hhi : hi = (if k = .baud ∨ k = .signature then 2147483647 else k.base + k.max))
      (h1 : s'.reqs = s.reqs ++ [⟨k, k.opt, k.base, hi, id, left⟩]) (h2 : s'.cbs = s.cbs) (h3 : s'.acc = s.acc ++ id.toList)
      (h4 : s'.dropped = s.dropped) (h5 : s'.opened = s.opened) (h6 : s'.timer = (s.timer || s.opened)) (h7 : s'.freed = s.freed)

theorem startTimer_spec (s : Stel) : (startTimer s).reqs = s.reqs ∧ (startTimer s).cbs = s.cbs ∧ (startTimer s).acc = s.acc ∧
    (startTimer s).dropped = s.dropped ∧ (startTimer s).opened = s.opened ∧ (startTimer s).timer = (s.timer || s.opened) ∧
    (startTimer s).freed = s.freed := by
  unfold startTimer
  split
  · rename_i h; exact ⟨rfl, rfl, rfl, rfl, rfl, by simp [h], rfl⟩
  · rename_i h; exact ⟨rfl, rfl, rfl, rfl, rfl, by simp [h], rfl⟩

theorem tick_spec {s : Stel} (ht : s.timer = true) : (tick s).reqs = (tickLoop s.reqs).1 ∧
    (tick s).cbs = s.cbs ++ ((tickLoop s.reqs).2.flatMap fun r => r.id.toList.map fun i => (i, Res.timedout)) ∧
    (tick s).acc = s.acc ∧ (tick s).dropped = s.dropped ∧ (tick s).opened = s.opened ∧
    ((tickLoop s.reqs).1 ≠ [] → (tick s).timer = s.opened) ∧ (tick s).freed = s.freed := by
  unfold tick
  rw [if_neg (by simp [ht])]
  dsimp only
  by_cases hn : (tickLoop s.reqs).1 ≠ []
  · rw [if_pos hn]
    obtain ⟨a1, a2, a3, a4, a5, a6, a7⟩ := startTimer_spec { s with timer := false, reqs := (tickLoop s.reqs).1 }
    exact ⟨a1, by rw [a2], a3, a4, a5, fun _ => by rw [a6]; simp, a7⟩
  · rw [if_neg hn]
    exact ⟨rfl, rfl, rfl, rfl, rfl, fun h => absurd h hn, rfl⟩

theorem queue_added (s : Stel) (k : Kind) (hi : Int) (id : Option Nat) (t : Option (Int × Nat)) (m : Bool)
    (hhi : (if hi = 0 then 2147483647 else hi) = (if k = .baud ∨ k = .signature then 2147483647 else k.base + k.max)) :
    Added s (queue s k k.base hi id t m).1 := by
  unfold queue
  split
  · exact .same rfl rfl rfl rfl rfl rfl rfl
  · split
    · exact .same rfl rfl rfl rfl rfl rfl rfl
    · obtain ⟨a1, a2, a3, a4, a5, a6, a7⟩ := startTimer_spec { s with reqs := s.reqs ++ [⟨k, k.opt, k.base, if hi = 0 then 2147483647 else hi, id, leftOf t⟩], acc := s.acc ++ id.toList }
      exact .one k _ id (leftOf t) hhi a1 a2 a3 a4 a5 a6 a7

theorem Added.send {s s' : Stel} (h : Added s s') (o : List UInt8) : Added s (send s' o) := by
  cases h with
  | same h1 h2 h3 h4 h5 h6 h7 => exact .same h1 h2 h3 h4 h5 h6 h7
  | one k hi id left hhi h1 h2 h3 h4 h5 h6 h7 => exact .one k hi id left hhi h1 h2 h3 h4 h5 h6 h7

theorem queueAndSend_added (s : Stel) (k : Kind) (hk : k ≠ .baud ∧ k ≠ .signature) (a : Option (List UInt8)) (id : Option Nat)
    (t : Option (Int × Nat)) (m : Bool) : Added s (queueAndSend s k a id t m).1 := by
  have hq : (if k.base + k.max = 0 then 2147483647 else k.base + k.max) = (if k = .baud ∨ k = .signature then 2147483647 else k.base + k.max) := by
    cases k <;> first | rfl | (exfalso; simp at hk)
  unfold queueAndSend
  split
  · exact .same rfl rfl rfl rfl rfl rfl rfl
  · split
    · exact .same rfl rfl rfl rfl rfl rfl rfl
    · split
      · dsimp only
        split
        · exact queue_added s k _ id t m hq
        · exact (queue_added s k _ id t m hq).send _
      · exact .same rfl rfl rfl rfl rfl rfl rfl

theorem acontrol_added (s : Stel) (k : Kind) (g : Bool) (d : List UInt8) (id : Option Nat) (t : Option (Int × Nat)) (m : Bool) :
    Added s (acontrol s k g d id t m).1 := by
  unfold acontrol
  split
  · exact .same rfl rfl rfl rfl rfl rfl rfl
  · dsimp only
    split
    · unfold setBaud
      have hb := queue_added s .baud 0 id t m rfl
      by_cases hc : s.isClient = true
      · simp only [hc, if_true]
        split
        · exact hb
        · exact hb.send _
      · simp only [hc]
        exact .same rfl rfl rfl rfl rfl rfl rfl
    · unfold setSig
      have hb := queue_added s .signature 0 id t m rfl
      split
      · dsimp only
        split
        · exact hb
        · exact hb.send _
      · exact .same rfl rfl rfl rfl rfl rfl rfl
    · rename_i k' h1 h2
      exact queueAndSend_added s k ⟨by simpa using h1, by simpa using h2⟩ _ id t m

/-- What an answer does to the requests. -/
inductive Answered (s s' : Stel) : Prop
  | same (h1 : s'.reqs = s.reqs) (h2 : s'.cbs = s.cbs) (h3 : s'.acc = s.acc) (h4 : s'.dropped = s.dropped)
      (h5 : s'.opened = s.opened) (h6 : s'.timer = s.timer) (h7 : s'.freed = s.freed)
  | one (pre post : List Req) (r : Req) (t : List UInt8) (h0 : s.reqs = pre ++ r :: post)
      (h1 : s'.reqs = pre ++ post) (h2 : s'.cbs = s.cbs ++ r.id.toList.map fun i => (i, .text t)) (h3 : s'.acc = s.acc)
      (h4 : s'.dropped = s.dropped) (h5 : s'.opened = s.opened) (h6 : s'.timer = s.timer) (h7 : s'.freed = s.freed)

theorem answer_answered (s : Stel) (cmd : Nat) (v : Int) (g : Option (List UInt8)) : Answered s (answer s cmd v g) := by
  unfold answer
  cases h : take cmd v s.reqs with
  | none => exact .same rfl rfl rfl rfl rfl rfl rfl
  | some p =>
    obtain ⟨r, rs⟩ := p
    obtain ⟨pre, post, h1, h2, _⟩ := take_some h
    exact .one pre post r _ h1 h2 rfl rfl rfl rfl rfl rfl

theorem clientCmd_answered {s s' : Stel} {o : List UInt8} (h : clientCmd s o = some s') : Answered s s' := by
  unfold clientCmd at h
  split at h
  · cases h; exact .same rfl rfl rfl rfl rfl rfl rfl
  · cases hc : o[1]? with
    | none => rw [hc] at h; simp at h
    | some c =>
      rw [hc, Option.bind_some] at h
      split at h
      · cases h; exact .same rfl rfl rfl rfl rfl rfl rfl
      split at h
      · cases h; exact answer_answered ..
      split at h
      · cases hb : baudOf o with
        | none => rw [hb] at h; simp at h
        | some b =>
          rw [hb, Option.map_some] at h
          cases b with
          | none => cases h; exact .same rfl rfl rfl rfl rfl rfl rfl
          | some p =>
            obtain ⟨v, ci⟩ := p
            simp only [Option.some.injEq] at h
            subst h
            have := answer_answered { s with cisco := s.cisco || ci } 1 v none
            cases this with
            | same h1 h2 h3 h4 h5 h6 h7 => exact .same h1 h2 h3 h4 h5 h6 h7
            | one pre post r t h0 h1 h2 h3 h4 h5 h6 h7 => exact .one pre post r t h0 h1 h2 h3 h4 h5 h6 h7
      split at h
      · cases h; exact .same rfl rfl rfl rfl rfl rfl rfl
      split at h
      · cases h; exact .same rfl rfl rfl rfl rfl rfl rfl
      split at h
      · cases h; exact .same rfl rfl rfl rfl rfl rfl rfl
      · cases hv : o[2]? with
        | none => rw [hv] at h; simp at h
        | some v =>
          rw [hv, Option.map_some] at h
          simp only [Option.some.injEq] at h
          subst h
          split
          · exact .same rfl rfl rfl rfl rfl rfl rfl
          · split
            · exact .same rfl rfl rfl rfl rfl rfl rfl
            · exact answer_answered ..

theorem control_same (s : Stel) (c : Ctl) (d : List UInt8) : Added s (control s c d).1 := by
  unfold control
  split
  · exact .same rfl rfl rfl rfl rfl rfl rfl
  · cases c <;> exact .same rfl rfl rfl rfl rfl rfl rfl

/-! ### Every request is accounted for -/

/-- The count of an identifier among the accepted requests is that of the callbacks made, the requests
waiting and those dropped. -/
def Inv (s : Stel) : Prop := ∀ i, s.acc.count i = (s.cbs.map (·.1)).count i + (ids s.reqs).count i + s.dropped.count i

theorem Inv.step {s s' : Stel} {o : Op} (h : Inv s) (e : step s o = some s') : Inv s' := by
  intro i
  have hi := h i
  cases o with
  | acontrol k g d id t m =>
    cases e
    cases acontrol_added s k g d id t m with
    | same h1 h2 h3 h4 => rw [h1, h2, h3, h4]; exact hi
    | one k hi' id' left hhi h1 h2 h3 h4 => rw [h1, h2, h3, h4]; simp [ids] at hi ⊢; omega
  | control c d =>
    cases e
    cases control_same s c d with
    | same h1 h2 h3 h4 => rw [h1, h2, h3, h4]; exact hi
    | one k hi' id' left hhi h1 h2 h3 h4 => rw [h1, h2, h3, h4]; simp [ids] at hi ⊢; omega
  | received o =>
    cases clientCmd_answered e with
    | same h1 h2 h3 h4 => rw [h1, h2, h3, h4]; exact hi
    | one pre post r t h0 h1 h2 h3 h4 =>
      rw [h0] at hi
      rw [h1, h2, h3, h4]
      cases hr : r.id <;> simp [ids, hr, List.count_cons] at hi ⊢ <;> omega
  | tick =>
    cases e
    show (tick s).acc.count i = _
    unfold tick
    split
    · exact hi
    · have ht := tickLoop_ids i s.reqs
      have hc : ((tickLoop s.reqs).2.flatMap fun r => r.id.toList.map fun i => (i, Res.timedout)).map (·.1) = ids (tickLoop s.reqs).2 := by
        generalize (tickLoop s.reqs).2 = l
        induction l with
        | nil => rfl
        | cons a l ih => cases ha : a.id <;> simp [ids, ha] at ih ⊢ <;> exact ih
      dsimp only
      unfold startTimer
      split <;> (try split) <;> simp only [List.map_append, List.count_append, hc] <;> omega
  | willDo y => cases e; exact hi
  | opn => cases e; exact hi
  | close => cases e; exact hi
  | free =>
    cases e
    show s.acc.count i = (s.cbs.map (·.1)).count i + (ids []).count i + (s.dropped ++ ids s.reqs).count i
    simp [ids] at hi ⊢; omega

theorem Inv.run : ∀ {ops : List Op} {s s' : Stel}, Inv s → run s ops = some s' → Inv s' := by
  intro ops
  induction ops with
  | nil => intro s s' h e; cases e; exact h
  | cons o os ih =>
    intro s s' h e
    rw [Rfc2217.run] at e
    split at e
    · cases e; exact h
    · cases e1 : Rfc2217.step s o with
      | none => rw [e1] at e; simp at e
      | some s1 => rw [e1] at e; exact ih (h.step e1) e

/-! ### Timing out -/

/-- Request `i` waits and will have timed out after at most `n` more ticks. -/
def Waits (s : Stel) (i : Nat) (n : Nat) : Prop :=
  ∃ pre r post, s.reqs = pre ++ r :: post ∧ r.id = some i ∧ 1 ≤ r.left ∧ (pre.length : Int) + r.left ≤ n

/-- The gensio is open and the timer runs if a request waits. -/
def Runs (s : Stel) : Prop := s.opened = true ∧ (s.reqs ≠ [] → s.timer = true) ∧ s.freed = false

/-- Operations that neither close nor free. -/
def Op.stays : Op → Bool
  | .close | .free => false
  | _ => true

theorem Runs.step {s s' : Stel} {o : Op} (h : Runs s) (ho : o.stays = true) (e : Rfc2217.step s o = some s') : Runs s' := by
  obtain ⟨h1, h2, h3⟩ := h
  have hadd : ∀ s', Added s s' → Runs s' := by
    intro s' a
    cases a with
    | same a1 a2 a3 a4 a5 a6 a7 => exact ⟨by rw [a5, h1], by rw [a1, a6]; exact h2, by rw [a7, h3]⟩
    | one k hi id left hhi a1 a2 a3 a4 a5 a6 a7 => exact ⟨by rw [a5, h1], by intro _; rw [a6, h1]; simp, by rw [a7, h3]⟩
  cases o with
  | acontrol k g d id t m => cases e; exact hadd _ (acontrol_added ..)
  | control c d => cases e; exact hadd _ (control_same ..)
  | received o =>
    cases clientCmd_answered e with
    | same a1 a2 a3 a4 a5 a6 a7 => exact ⟨by rw [a5, h1], by rw [a1, a6]; exact h2, by rw [a7, h3]⟩
    | one pre post r t a0 a1 a2 a3 a4 a5 a6 a7 => exact ⟨by rw [a5, h1], by intro _; rw [a6]; exact h2 (by rw [a0]; simp), by rw [a7, h3]⟩
  | tick =>
    cases e
    by_cases ht : s.timer = true
    · obtain ⟨a1, a2, a3, a4, a5, a6, a7⟩ := tick_spec ht
      exact ⟨by show (tick s).opened = true; rw [a5, h1], fun hx => by show (tick s).timer = true; rw [a6 (by rw [← a1]; exact hx), h1], by show (tick s).freed = false; rw [a7, h3]⟩
    · show Runs (tick s)
      unfold tick; rw [if_pos (by simp [ht])]; exact ⟨h1, h2, h3⟩
  | willDo y => cases e; exact ⟨h1, h2, h3⟩
  | opn => cases e; exact ⟨rfl, fun hx => by show (s.timer || s.pend) = true; rw [h2 hx]; rfl, h3⟩
  | close => simp [Op.stays] at ho
  | free => simp [Op.stays] at ho

/-- A step either answers the waiting request or leaves it waiting, a tick brings it nearer. -/
theorem Waits.step {s s' : Stel} {o : Op} {i n : Nat} (hw : Waits s i n) (hr : Runs s) (ho : o.stays = true)
    (e : Rfc2217.step s o = some s') : (∃ c ∈ s'.cbs, c.1 = i) ∨ Waits s' i (if o = .tick then n - 1 else n) := by
  obtain ⟨pre, r, post, w1, w2, w3, w4⟩ := hw
  have hadd : ∀ s', Added s s' → Waits s' i n := by
    intro s' a
    cases a with
    | same a1 => exact ⟨pre, r, post, by rw [a1, w1], w2, w3, w4⟩
    | one k hi id left hhi a1 => exact ⟨pre, r, post ++ [_], by rw [a1, w1]; simp; rfl, w2, w3, w4⟩
  cases o with
  | acontrol k g d id t m => cases e; exact Or.inr (hadd _ (acontrol_added ..))
  | control c d => cases e; exact Or.inr (hadd _ (control_same ..))
  | received o =>
    cases clientCmd_answered e with
    | same a1 => exact Or.inr ⟨pre, r, post, by rw [a1, w1], w2, w3, w4⟩
    | one pre' post' r' t a0 a1 a2 =>
      rw [w1] at a0
      rcases List.append_eq_append_iff.1 a0 with ⟨x, hx1, hx2⟩ | ⟨x, hx1, hx2⟩
      · cases x with
        | nil =>
          simp only [List.nil_append, List.cons.injEq] at hx2
          left
          refine ⟨(i, .text t), ?_, rfl⟩
          rw [a2, ← hx2.1, w2]; simp
        | cons b x =>
          simp only [List.cons_append, List.cons.injEq] at hx2
          right
          exact ⟨pre, r, x ++ post', by rw [a1, hx1, hx2.1]; simp, w2, w3, w4⟩
      · cases x with
        | nil =>
          simp only [List.nil_append, List.cons.injEq] at hx2
          left
          refine ⟨(i, .text t), ?_, rfl⟩
          rw [a2, hx2.1, w2]; simp
        | cons b x =>
          simp only [List.cons_append, List.cons.injEq] at hx2
          right
          refine ⟨pre' ++ x, r, post, by rw [a1, hx2.2]; simp, w2, w3, ?_⟩
          rw [hx1] at w4
          simp only [List.length_append, List.length_cons, if_neg (show ¬(Op.received o = Op.tick) by simp)] at w4 ⊢
          omega
  | tick =>
    cases e
    have ht : s.timer = true := hr.2.1 (by rw [w1]; simp)
    obtain ⟨hrq, hcb, _⟩ := tick_spec ht
    rcases tickLoop_at r post w3 pre with h | ⟨pre', r', post', a1, a2, a3, a4⟩
    · left
      refine ⟨(i, .timedout), ?_, rfl⟩
      show (i, Res.timedout) ∈ (tick s).cbs
      rw [hcb, w1]
      refine List.mem_append_right _ (List.mem_flatMap.2 ⟨r, h, ?_⟩)
      rw [w2]; simp
    · right
      rw [if_pos rfl]
      refine ⟨pre', r', post', ?_, by rw [a2, w2], a3, by omega⟩
      show (tick s).reqs = _
      rw [hrq, w1, a1]
  | willDo y => cases e; exact Or.inr ⟨pre, r, post, w1, w2, w3, w4⟩
  | opn => cases e; exact Or.inr ⟨pre, r, post, w1, w2, w3, w4⟩
  | close => simp [Op.stays] at ho
  | free => simp [Op.stays] at ho

/-- No step takes a callback back. -/
theorem cbs_step {s s' : Stel} {o : Op} (e : Rfc2217.step s o = some s') : ∃ l, s'.cbs = s.cbs ++ l := by
  cases o with
  | acontrol k g d id t m => cases e; cases acontrol_added s k g d id t m with
    | same a1 a2 => exact ⟨[], by rw [a2]; simp⟩
    | one k hi id left hhi a1 a2 => exact ⟨[], by rw [a2]; simp⟩
  | control c d => cases e; cases control_same s c d with
    | same a1 a2 => exact ⟨[], by rw [a2]; simp⟩
    | one k hi id left hhi a1 a2 => exact ⟨[], by rw [a2]; simp⟩
  | received o => cases clientCmd_answered e with
    | same a1 a2 => exact ⟨[], by rw [a2]; simp⟩
    | one pre post r t a0 a1 a2 => exact ⟨_, a2⟩
  | tick =>
    cases e
    show ∃ l, (tick s).cbs = _
    unfold tick
    split
    · exact ⟨[], by simp⟩
    · dsimp only; unfold startTimer; split <;> (try split) <;> exact ⟨_, rfl⟩
  | willDo y => cases e; exact ⟨[], by simp [willDo]⟩
  | opn => cases e; exact ⟨[], by simp [opn]⟩
  | close => cases e; exact ⟨[], by simp [close]⟩
  | free => cases e; exact ⟨[], by simp [free]⟩

theorem cbs_run : ∀ {ops : List Op} {s s' : Stel}, run s ops = some s' → ∃ l, s'.cbs = s.cbs ++ l := by
  intro ops
  induction ops with
  | nil => intro s s' e; cases e; exact ⟨[], by simp⟩
  | cons o os ih =>
    intro s s' e
    rw [run] at e
    split at e
    · cases e; exact ⟨[], by simp⟩
    · cases e1 : Rfc2217.step s o with
      | none => rw [e1] at e; simp at e
      | some s1 =>
        rw [e1] at e
        obtain ⟨l1, h1⟩ := cbs_step e1
        obtain ⟨l2, h2⟩ := ih e
        exact ⟨l1 ++ l2, by rw [h2, h1]; simp⟩

theorem Waits.run : ∀ {ops : List Op} {s s' : Stel} {i n : Nat}, Waits s i n → Runs s → (∀ o ∈ ops, o.stays = true) →
    Rfc2217.run s ops = some s' → n ≤ ops.count .tick → ∃ c ∈ s'.cbs, c.1 = i := by
  intro ops
  induction ops with
  | nil =>
    intro s s' i n hw _ _ _ hn
    obtain ⟨pre, r, post, _, _, h3, h4⟩ := hw
    simp at hn; omega
  | cons o os ih =>
    intro s s' i n hw hr ho e hn
    rw [Rfc2217.run, if_neg (by simp [hr.2.2])] at e
    cases e1 : Rfc2217.step s o with
    | none => rw [e1] at e; simp at e
    | some s1 =>
      rw [e1] at e
      have hs := ho o (by simp)
      rcases hw.step hr hs e1 with ⟨c, hc, hi⟩ | hw'
      · obtain ⟨l, hl⟩ := cbs_run e
        exact ⟨c, by rw [hl]; exact List.mem_append_left _ hc, hi⟩
      · refine ih hw' (hr.step hs e1) (fun o' h' => ho o' (by simp [h'])) e ?_
        rw [List.count_cons] at hn
        by_cases ht : o = .tick
        · subst ht; simp at hn ⊢; omega
        · rw [if_neg ht]; simpa [ht] using hn

end Gensio.Rfc2217
