import Verif.Lemmas.Ax25Step

namespace Gensio.Ax25

/-- One parameter of an XID that is in its group. -/
theorem xidLoop_one {c : Chan} {ind len : UInt8} {bs v : List UInt8} {glen : Nat} (hl : len.toNat = v.length) (h1 : 1 ≤ v.length) (h4 : v.length ≤ 4)
    (hg : glen ≥ v.length + 2) :
    xidLoop c (ind :: len :: (v ++ bs)) glen = xidLoop (xidParm c ind.toNat (xidVal v)) bs (glen - (v.length + 2)) := by
  rw [xidLoop, if_neg (by omega), if_neg (by omega)]
  rw [if_neg (by omega), if_neg (by omega), if_neg (by rw [List.length_append]; omega), hl, List.take_left, List.drop_left]

/-- What an XID of a gensio does. -/
def xidEffect (c : Chan) (g : Conf) : Chan :=
  let w := if g.readwindow > c.conf.writewindow then c.conf.writewindow else g.readwindow
  let r := g.maxRetries % 256
  { c with writewindow := w, maxRetries := if r > c.conf.maxRetries then r else c.maxRetries }

theorem xidVal_one (a : UInt8) : xidVal [a] = a.toNat := by simp [xidVal]

theorem handleXid_gensio {c : Chan} (hs : c.state = .opn) {g : Conf} (h0 : 0 < g.readwindow) (h1 : g.readwindow ≤ 127)
    (hw : c.conf.writewindow ≤ 127) (pf ic : Bool) :
    handleXid c pf ic (formatXid g) = some (if ic then sendRsp (xidEffect c g) (.unn .xid) pf else xidEffect c g) := by
  have hloop : xidLoop c ((formatXid g).drop 4) 25 = some (xidEffect c g, true) := by
    have e : (formatXid g).drop 4 = 2 :: 2 :: ([0x21, 0] ++ (3 :: 3 :: ([0x86, 0xa8, 0x02] ++ (6 :: 2 :: (be16 (g.maxRead * 8) ++
        (8 :: 1 :: ([UInt8.ofNat g.readwindow] ++ (9 :: 4 :: (be32 (g.srtv * 2) ++ (10 :: 1 :: ([UInt8.ofNat g.maxRetries] ++ []))))))))))) := by
      simp [formatXid, be16, be32]
    rw [e, xidLoop_one rfl (by simp) (by simp) (by simp)]
    rw [xidLoop_one rfl (by simp) (by simp) (by simp)]
    rw [xidLoop_one rfl (by simp [be16]) (by simp [be16]) (by simp [be16])]
    rw [xidLoop_one rfl (by simp) (by simp) (by simp [be16])]
    rw [xidLoop_one rfl (by simp [be32]) (by simp [be32]) (by simp [be16, be32])]
    rw [xidLoop_one rfl (by simp) (by simp) (by simp [be16, be32])]
    have base : ∀ c, xidLoop c [] 0 = some (c, true) := by intro c; unfold xidLoop; simp
    rw [show (be16 (g.maxRead * 8)).length = 2 from rfl, show (be32 (g.srtv * 2)).length = 4 from rfl]
    simp only [List.length_cons, List.length_nil, Nat.reduceAdd, Nat.reduceSub]
    rw [base]
    have hr : (UInt8.ofNat g.readwindow).toNat = g.readwindow := by
      rw [UInt8.toNat_ofNat']; omega
    have hm : (UInt8.ofNat g.maxRetries).toNat = g.maxRetries % 256 := by
      rw [UInt8.toNat_ofNat']
    have p2 : ∀ (c : Chan) v, xidParm c (2 : UInt8).toNat v = c := by intro c v; simp [xidParm]
    have p3 : ∀ (c : Chan) v, xidParm c (3 : UInt8).toNat v = c := by intro c v; simp [xidParm]
    have p9 : ∀ (c : Chan) v, xidParm c (9 : UInt8).toNat v = c := by intro c v; simp [xidParm]
    rw [p2, p3, p9, xidVal_one, xidVal_one, hr, hm]
    obtain ⟨w, hc6⟩ : ∃ w, xidParm c (6 : UInt8).toNat (xidVal (be16 (g.maxRead * 8))) = { c with writewindow := w } := by
      show ∃ w, xidParm c 6 _ = _
      unfold xidParm
      simp only [if_true]
      split
      · exact ⟨_, rfl⟩
      · split
        · exact ⟨_, rfl⟩
        · exact ⟨_, rfl⟩
    rw [hc6]
    have p8 : xidParm { c with writewindow := w } (8 : UInt8).toNat g.readwindow =
        { c with writewindow := if g.readwindow > c.conf.writewindow then c.conf.writewindow else g.readwindow } := by
      show xidParm _ 8 _ = _
      unfold xidParm
      simp only [if_neg (show ¬ (8 = 6) by omega), if_true, if_neg (show ¬ g.readwindow = 0 by omega)]
      congr 1
      unfold u8; split <;> omega
    rw [p8]
    congr 2
    show xidParm _ 10 _ = _
    unfold xidParm xidEffect
    simp only [if_neg (show ¬ (10 = 6) by omega), if_neg (show ¬ (10 = 8) by omega), if_true]
    split
    · rename_i h; simp [h]
    · split <;> rfl
  have hlen : ((formatXid g).drop 4).length = 25 := by simp [formatXid, be16, be32]
  have hsplit : formatXid g = 0x82 :: 0x80 :: 0 :: 25 :: (formatXid g).drop 4 := by simp [formatXid, be16]
  unfold handleXid
  rw [if_neg (by simp [hs]), hsplit]
  dsimp only
  rw [if_neg (by simp), if_neg (by simp), if_neg (by rw [hlen]; decide)]
  rw [show (0 : UInt8).toNat * 256 + (25 : UInt8).toNat = 25 from rfl, hloop]
  dsimp only
  cases ic <;> rfl

end Gensio.Ax25
