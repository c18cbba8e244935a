import Verif.Lemmas.DgramStep

/-! All steps of datagram gensios that are used with care. -/
set_option linter.unusedSimpArgs false
namespace Gensio.Dgram

section
variable {nc : Bool} {pr : Prop}

theorem mem_erase {l : List T} {k : Nat} {t u : T} (h : l[k]? = some t) : u ∈ t :: l.eraseIdx k ↔ u ∈ l := by
  induction l generalizing k with
  | nil => simp at h
  | cons v l ih =>
    cases k with
    | zero => simp at h; subst h; simp
    | succ k =>
      simp at h
      have := ih h
      simp only [List.eraseIdx_cons_succ, List.mem_cons] at this ⊢
      rw [← this]
      constructor
      · rintro (x | x | x)
        · exact .inr (.inl x)
        · exact .inl x
        · exact .inr (.inr x)
      · rintro (x | x | x)
        · exact .inr (.inl x)
        · exact .inl x
        · exact .inr (.inr x)

theorem Full.erase {s : U} {k i : Nat} {t : T} {c : C} (h : Full nc pr s s.ths i c) (hk : s.ths[k]? = some t) :
    Full nc pr { s with ths := s.ths.eraseIdx k } (t :: s.ths.eraseIdx k) i c := by
  obtain ⟨⟨q1, q2, q3, q4, q5, q6, q7, q8, q9, q10, q11, q12⟩, h2, h3, h4⟩ := h
  refine ⟨⟨?_, ?_, ?_, ?_, q5, q6, q7, q8, q9, q10, q11, q12⟩, h2, ?_, ?_⟩
  · rw [cons_count, ← countP_erase hk]; exact q1
  · rw [cons_count, ← countP_erase hk]; exact q2
  · rw [cons_count, ← countP_erase hk]; exact q3
  · rw [cons_count, ← countP_erase hk]; exact q4
  · rw [mem_erase hk]; exact h3
  · rw [mem_erase hk]; exact h4

theorem J.cont {k : Nat} {s : U} {t : T} {err : Bool} {count : Nat} (hI : I 0 s) (h : J nc pr none s) (hk : s.ths[k]? = some t)
    (hcalm : Calm s (.cont k err count)) (hp : pr → Prompt s (.cont k err count)) :
    ∃ u, Dgram.cont { s with ths := s.ths.eraseIdx k } t err count = some u ∧ J nc pr none u := by
  have hlt : k < s.ths.length := (List.getElem?_eq_some_iff.mp hk).1
  have hI1 := hI.erase hlt
  have hmem : t ∈ s.ths := List.mem_of_getElem? hk
  have hrh : t.isRh = true → s.nfd ≤ 1 → (s.ths.eraseIdx k).countP T.isRh = 0 := by
    intro hx hn
    have := h.rh1 hn
    have e := countP_erase (p := T.isRh) hk
    rw [hx] at e
    simp only [b2n_true] at e; omega
  -- the connection of the thread
  have hconn : ∀ i, t.ix = some i → ∃ c, s.cs[i]? = some c ∧ Full nc pr { s with ths := s.ths.eraseIdx k } (t :: s.ths.eraseIdx k) i c := by
    intro i hi
    have hil := (h.ix t hmem).2 i hi
    have hc : s.cs[i]? = some s.cs[i] := List.getElem?_eq_getElem hil
    exact ⟨_, hc, (h.full hc).erase hk⟩
  cases t with
  | newEn i => exact absurd rfl ((h.ix _ hmem).1 i)
  | new i =>
    obtain ⟨c, hc, hf⟩ := hconn i rfl
    have hin : c.inRead = true ∧ c.defRead = false := by
      have h0 := hf.q.rdn
      simp only [cons_count, T.rdr, beq_self_eq_true, b2n_true] at h0
      cases hx : c.inRead <;> cases hy : c.defRead <;> rw [hx, hy] at h0 <;> simp at h0
      exact ⟨rfl, rfl⟩
    have hgo : c.gone = false := by
      cases hx : c.gone
      · rfl
      · exact absurd (hf.q.gn hx).2.1 (hf.q.busy (.inl hin.1))
    have hns := hf.q.nshut (by simp [T.rdr])
    have hg : ({ s with ths := s.ths.eraseIdx k } : U).get i = some c := get_some.mpr ⟨hc, hgo⟩
    unfold Dgram.cont
    dsimp only
    rw [hg, Option.bind_some]
    refine J.newCont hI1 (h.erase hk rfl) (hcalm i hk) hg hf.q ?_ ?_ (hrh rfl) (fun hn => h.nw hn i hmem)
    · intro hu
      rcases hf.d hu hin.1 with x | x
      · exact x
      · simp at x; exact absurd x hns
    · intro hn ho
      exact hf.ad hn ho (.inr ⟨hin.1, by simpa using hns⟩)
  | read i rh =>
    obtain ⟨c, hc, hf⟩ := hconn i rfl
    have hin : c.inRead = true ∧ c.defRead = false := by
      have h0 := hf.q.rdn
      simp only [cons_count, T.rdr, beq_self_eq_true, b2n_true] at h0
      cases hx : c.inRead <;> cases hy : c.defRead <;> rw [hx, hy] at h0 <;> simp at h0
      exact ⟨rfl, rfl⟩
    have hgo : c.gone = false := by
      cases hx : c.gone
      · rfl
      · exact absurd (hf.q.gn hx).2.1 (hf.q.busy (.inl hin.1))
    have hns := hf.q.nshut (by simp [T.rdr])
    have hg : ({ s with ths := s.ths.eraseIdx k } : U).get i = some c := get_some.mpr ⟨hc, hgo⟩
    refine J.readCont hI1 (h.erase hk rfl) hg hf.q ?_ ?_ ?_ ?_
    · intro hu
      rcases hf.d hu hin.1 with x | x
      · exact x
      · simp at x; exact absurd x hns
    · intro hn ho
      exact hf.ad hn ho (.inr ⟨hin.1, by simpa using hns⟩)
    · intro hx; subst hx; exact hrh rfl
    · intro hx hpr; subst hx; exact hp hpr i c (.inl hk) hc
  | openCb i =>
    obtain ⟨c, hc, hf⟩ := hconn i rfl
    have hin : c.inOpenCb = true := by
      have h0 := hf.q.opn
      simp only [cons_count, T.opr, beq_self_eq_true, b2n_true] at h0
      cases hx : c.inOpenCb <;> rw [hx] at h0 <;> simp at h0
    have hst := hf.q.busy (.inr (.inr hin))
    have hgo : c.gone = false := by
      cases hx : c.gone
      · rfl
      · exact absurd (hf.q.gn hx).2.1 hst
    have hg : ({ s with ths := s.ths.eraseIdx k } : U).get i = some c := get_some.mpr ⟨hc, hgo⟩
    unfold Dgram.cont
    dsimp only
    rw [hg, Option.bind_some]
    have hs := checkRead_sj (({ s with ths := s.ths.eraseIdx k } : U).put i { c with inOpenCb := false })
    have hc2 : (checkRead (({ s with ths := s.ths.eraseIdx k } : U).put i { c with inOpenCb := false })).cs[i]? = some { c with inOpenCb := false } := by
      rw [hs.cs]; exact put_self hc
    refine J.cdopRest (k := 0) (c := { c with inOpenCb := false }) (hI1.put hc).check ((h.erase hk rfl).mput hc).check (get_some.mpr ⟨hc2, hgo⟩) ?_ ?_ ?_ (fun hx => absurd hx hst)
    · rw [hs.ths]
      obtain ⟨q1, q2, q3, q4, q5, q6, q7, q8, q9, q10, q11, q12⟩ := hf.q
      simp only [cons_count, T.rdr, T.wtr, T.opr, T.clr, b2n_false, Nat.add_zero, beq_self_eq_true, b2n_true] at q1 q2 q3 q4
      refine ⟨q1, q2, ?_, q4, q5, ?_, ?_, q8, q9, q10, q11, q12⟩
      · rw [hin] at q3; simp at q3 ⊢; exact q3
      · exact fun _ => hst
      · exact fun _ => rfl
    · rw [hs.owner, hs.nfd, hs.pend, hs.ths]
      intro hx hy
      rcases hf.d hx hy with z | z
      · exact .inl z
      · simp at z; exact .inr z
    · rw [hs.owner, hs.pend, hs.ths, hs.cur]
      intro hn ho hx
      refine hf.ad hn ho ?_
      rcases hx with x | ⟨x, y⟩
      · exact .inl x
      · exact .inr ⟨x, fun z => by simp at z; exact y z⟩
  | closeCb i ctx =>
    obtain ⟨c, hc, hf⟩ := hconn i rfl
    have hin : c.inCloseCb = true := by
      have h0 := hf.q.cln
      simp only [cons_count, T.clr, beq_self_eq_true, b2n_true] at h0
      cases hx : c.inCloseCb <;> rw [hx] at h0 <;> simp at h0
    have hgo : c.gone = false := by
      cases hx : c.gone
      · rfl
      · rw [(hf.q.gn hx).2.2] at hin; cases hin
    have hst := hf.q.ic hin
    have hg : ({ s with ths := s.ths.eraseIdx k } : U).get i = some c := get_some.mpr ⟨hc, hgo⟩
    unfold Dgram.cont
    dsimp only
    rw [hg, Option.bind_some]
    have h1 : J nc pr none (({ s with ths := s.ths.eraseIdx k } : U).put i { c with inCloseCb := false }) := by
      refine ((h.erase hk rfl).mput hc).back (put_self hc) ⟨?_, ?_, ?_, ?_⟩
      · obtain ⟨q1, q2, q3, q4, q5, q6, q7, q8, q9, q10, q11, q12⟩ := hf.q
        simp only [cons_count, T.rdr, T.wtr, T.opr, T.clr, b2n_false, Nat.add_zero, beq_self_eq_true, b2n_true] at q1 q2 q3 q4
        refine ⟨q1, q2, q3, ?_, q5, q6, q7, ?_, q9, q10, ?_, q12⟩
        · rw [hin] at q4; simp at q4; simp only [U.put]; simp; exact q4
        · simp
        · intro hx; replace hx : c.gone = true := hx; rw [hgo] at hx; cases hx
      · intro _ hx
        replace hx : c.st = .inClose := hx
        rw [hst] at hx; cases hx
      · intro hu
        replace hu : c.up = true := hu
        rw [up_closed hst] at hu; cases hu
      · intro _ ho
        have hno : s.owner ≠ some i := h.not_own hI hc (up_closed hst)
        exact absurd ho hno
    have hI2 : I 1 (({ s with ths := s.ths.eraseIdx k } : U).put i { c with inCloseCb := false }) := hI1.put hc
    obtain ⟨u, hu, hJ⟩ := h1.finishClose2 hI2 (get_some.mpr ⟨put_self hc, hgo⟩) hst rfl
    rw [hu, Option.bind_some]
    exact hJ.fin' (hI2.finishClose2 hu)
  | shutRh i =>
    obtain ⟨c, hc, hf⟩ := hconn i rfl
    have hin : c.inRead = true ∧ c.defRead = false := by
      have h0 := hf.q.rdn
      simp only [cons_count, T.rdr, beq_self_eq_true, b2n_true] at h0
      cases hx : c.inRead <;> cases hy : c.defRead <;> rw [hx, hy] at h0 <;> simp at h0
      exact ⟨rfl, rfl⟩
    have hst := hf.q.busy (.inl hin.1)
    have hgo : c.gone = false := by
      cases hx : c.gone
      · rfl
      · exact absurd (hf.q.gn hx).2.1 hst
    have hg : ({ s with ths := s.ths.eraseIdx k } : U).get i = some c := get_some.mpr ⟨hc, hgo⟩
    unfold Dgram.cont
    dsimp only
    rw [hg, Option.bind_some]
    have h1 : J nc pr none (({ s with ths := s.ths.eraseIdx k } : U).put i { c with inRead := false }) := by
      refine ((h.erase hk rfl).mput hc).back (put_self hc) ⟨?_, ?_, ?_, ?_⟩
      · obtain ⟨q1, q2, q3, q4, q5, q6, q7, q8, q9, q10, q11, q12⟩ := hf.q
        simp only [cons_count, T.rdr, T.wtr, T.opr, T.clr, b2n_false, Nat.add_zero, beq_self_eq_true, b2n_true] at q1 q2 q3 q4
        refine ⟨?_, q2, q3, q4, ?_, ?_, q7, q8, q9, q10, q11, q12⟩
        · rw [hin.1, hin.2] at q1; simp at q1; simp only [U.put]; simp; exact q1
        · simp [hin.2]
        · exact fun _ => hst
      · intro hpr hx
        exact absurd hx (hp hpr i c (.inr hk) hc)
      · simp
      · intro hn ho hx
        refine hf.ad hn ho (.inl ?_)
        rcases hx with hx | hx
        · exact hx
        · cases hx.1
    have hI2 : I 1 (({ s with ths := s.ths.eraseIdx k } : U).put i { c with inRead := false }) := hI1.put hc
    obtain ⟨u, hu, hJ⟩ := h1.checkFinish hI2
    rw [hu, Option.bind_some]
    exact hJ.outEnable (hI2.checkFinish hu)
  | shutDop =>
    unfold Dgram.cont
    dsimp only
    obtain ⟨u, hu, hJ⟩ := (h.erase0 hk rfl).checkFinish hI1
    rw [hu, Option.bind_some]
    exact hJ.dopEnd (hI1.checkFinish hu)
  | wr i =>
    obtain ⟨c, hc, hf⟩ := hconn i rfl
    have hin : c.inWrite = true := by
      have h0 := hf.q.wrn
      simp only [cons_count, T.wtr, beq_self_eq_true, b2n_true] at h0
      cases hx : c.inWrite <;> rw [hx] at h0 <;> simp at h0
    have hgo : c.gone = false := by
      cases hx : c.gone
      · rfl
      · exact absurd (hf.q.gn hx).2.1 (hf.q.busy (.inr (.inl hin)))
    exact J.wrCont hI1 (h.erase hk rfl) (get_some.mpr ⟨hc, hgo⟩) hf
  | en => exact (h.erase0 hk rfl).deref hI1

/-- When the accepter is gone nothing is left that could use it. -/
theorem J.alone {s : U} {op : Op} (hI : I 0 s) (h : J nc pr none s) (hcan : can s op = true) : s.ref ≠ 0 := by
  intro h0
  have hg : s.gone = true := hI.gone.mpr h0
  have hr := hI.ref
  rw [h0] at hr
  have hfin : s.finished = true := by
    cases hx : s.finished
    · rw [hx] at hr; simp at hr; omega
    · rfl
  have hths : s.ths.length = 0 := by omega
  have hcd : s.cs.countP (·.dop) = 0 := by omega
  have hd : s.dop = false := by
    cases hx : s.dop
    · rfl
    · rw [hx] at hr; simp only [b2n_true] at hr; omega
  have he : s.enRun = false := by
    cases hx : s.enRun
    · rfl
    · rw [hx] at hr; simp only [b2n_true] at hr; omega
  obtain ⟨hcnt, hcl, hfr⟩ := h.fin hfin
  have hall : ∀ i : Nat, (s.cs[i]?.any fun c => !c.freed) = false := by
    intro i
    cases hc : s.cs[i]? with
    | none => rfl
    | some c =>
      have : c.gone = true := by
        cases hx : c.gone
        · have : 0 < s.cs.countP (!·.gone) := List.countP_pos_iff.mpr ⟨c, List.mem_of_getElem? hc, by simp [hx]⟩
          have := hI.cnt
          omega
        · rfl
      show (!c.freed) = false
      rw [((h.full hc).q.gn this).1]; rfl
  cases op with
  | rx late a len => simp [can, hg] at hcan
  | tx late => simp [can, hg] at hcan
  | cdop i =>
    have : (s.cs[i]?.any fun c => c.dop) = true := hcan
    cases hc : s.cs[i]? with
    | none => rw [hc] at this; cases this
    | some c =>
      rw [hc] at this
      have : 0 < s.cs.countP (·.dop) := List.countP_pos_iff.mpr ⟨c, List.mem_of_getElem? hc, this⟩
      omega
  | adop => simp [can, hd] at hcan
  | enOp => simp [can, he] at hcan
  | cleared => simp [can] at hcan; omega
  | cont k err count => simp [can] at hcan; omega
  | opn i done => simp only [can] at hcan; rw [hall] at hcan; cases hcan
  | close i done => simp only [can] at hcan; rw [hall] at hcan; cases hcan
  | free i => simp only [can] at hcan; rw [hall] at hcan; cases hcan
  | setRead i b => simp only [can] at hcan; rw [hall] at hcan; cases hcan
  | setWrite i b => simp only [can] at hcan; rw [hall] at hcan; cases hcan
  | startup => simp [can, hfr] at hcan
  | shutdown done => simp [can, hfr] at hcan
  | setEnable b done => simp [can, hfr] at hcan
  | accFree => simp [can, hfr] at hcan
  | strTo a => simp [can, hfr] at hcan

theorem J.step {g : Cfg} {s : U} {op : Op} (hnc : nc = g.nocon) (hI : I 0 s) (h : J nc pr none s) (hcan : can s op = true) (hcalm : Calm s op)
    (hp : pr → Prompt s op) : ∃ t, Dgram.step g s op = some t ∧ J nc pr none t := by
  have hz := h.alone hI hcan
  have hg : s.gone = false := by
    cases hx : s.gone
    · rfl
    · exact absurd (hI.gone.mp hx) hz
  unfold Dgram.step
  rw [if_neg (by rw [hg]; simp)]
  cases op with
  | rx late a len =>
    simp only [can, Bool.and_eq_true, decide_eq_true_eq] at hcan
    exact h.rx hnc hI hz hcan.1.2 hcalm
  | tx late => exact h.tx hI hz
  | cdop i => exact h.cdop hI hcan
  | adop => exact h.adop hI hcan
  | enOp => exact h.enOp hI hcan
  | cleared =>
    replace hcan : s.clearing ≠ 0 := by simpa [can] using hcan
    refine J.deref (k := 0) ?_ (h.same (by constructor <;> rfl))
    obtain ⟨h1, h2, h3, h4, h5, h6, h7, h8, h9, h10⟩ := hI
    refine ⟨?_, h2, h3, h4, h5, h6, h7, h8, h9, ?_⟩
    · dsimp only; omega
    · intro hf; exact absurd (h10 hf) hcan
  | cont k err count =>
    replace hcan : k < s.ths.length := by simpa [can] using hcan
    have hk : s.ths[k]? = some s.ths[k] := List.getElem?_eq_getElem hcan
    dsimp only
    rw [hk, Option.bind_some]
    exact h.cont hI hk hcalm hp
  | opn i done => exact h.opn hI hz hcan hcalm
  | close i done => exact h.close hI hz hcan
  | free i => exact h.free hI hz hcan
  | setRead i b => exact h.setRead hI hz hcan
  | setWrite i b => exact h.setWrite hcan hcalm
  | startup =>
    refine ⟨_, rfl, ?_⟩
    have hn : (if s.nfd = 0 then g.nfd else s.nfd) ≤ 1 → s.nfd ≤ 1 := by
      split
      · omega
      · exact id
    obtain ⟨h1, h2, h3, h4, h5, h6, h7, h8, h9, h10⟩ := h
    refine ⟨h1, ?_, h3, h4, h5, h6, h7, fun hx => h8 (hn hx), fun hx => h9 (hn hx), h10⟩
    intro j d hj he hu hi
    rcases h2 j d hj he hu hi with x | x
    · exact .inl ⟨x.1, fun hx => x.2 (hn hx)⟩
    · exact .inr x
  | shutdown done => exact h.shutdown hz
  | setEnable b done => exact h.setEnable hz
  | accFree => exact h.accFree hI hz (by simpa [can] using hcan)
  | strTo a => exact h.strTo hI hz (by simpa [can] using hcan)

end
end Gensio.Dgram
