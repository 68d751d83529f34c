import Verif.Lemmas.WriteLoop
set_option linter.unusedSimpArgs false
set_option linter.unusedVariables false
namespace RedFs
open M Bitmap Vol

variable {c : Conf} {O : Nat → Prop} {s s' s1 s2 : DS} {V V' V1 V2 : Pos → Nat} {lo mid hi : Nat} {g g' : Nat → Byte}

/-- The logical blocks of a range of offsets. -/
def Blks (c : Conf) (lo hi b : Nat) : Prop := ∃ off, lo ≤ off ∧ off < hi ∧ b = off / c.blockSize

theorem Blks.add {mid : Nat} (h1 : lo ≤ mid) (h2 : mid ≤ hi) {b : Nat} : Blks c lo hi b ↔ Blks c lo mid b ∨ Blks c mid hi b := by
  constructor
  · rintro ⟨off, g1, g2, g3⟩
    by_cases h : off < mid
    · exact Or.inl ⟨off, g1, h, g3⟩
    · exact Or.inr ⟨off, by omega, g2, g3⟩
  · rintro (⟨off, g1, g2, g3⟩ | ⟨off, g1, g2, g3⟩)
    · exact ⟨off, g1, by omega, g3⟩
    · exact ⟨off, by omega, g2, g3⟩

/-- The bytes of the range `[lo, hi)` have been replaced by those of `g`. -/
structure Wr (c : Conf) (O : Nat → Prop) (s s' : DS) (V V' : Pos → Nat) (lo hi : Nat) (g : Nat → Byte) : Prop where
  ws : WS c O s s' V V' (Blks c lo hi)
  seek : SeekAll c s'.ci V'
  bytes : ∀ off, off < c.sizeMax → byteAt c s'.v.blk V' off = if lo ≤ off ∧ off < hi then g off else byteAt c s.v.blk V off
  dat : ∀ b, Blks c lo hi b → Dat c s'.v.blk V' b

namespace Wr

theorem of_ro (r : Ro c V s s') (h : FInv c O s V noZ) (hcnt : Cnt c s V) (lo : Nat) : Wr c O s s' V V lo lo g where
  ws := (WS.of_ro r h hcnt).weaken (fun b => ⟨False.elim, fun ⟨off, g1, g2, _⟩ => by omega⟩)
  seek := r.seek
  bytes := fun off _ => by rw [if_neg (by omega), r.v]
  dat := fun b ⟨off, g1, g2, _⟩ => by omega

theorem refl (h : FInv c O s V noZ) (hcnt : Cnt c s V) (hs : SeekAll c s.ci V) (lo : Nat) : Wr c O s s V V lo lo g :=
  of_ro (.refl hs) h hcnt lo

theorem inv (h : Wr c O s s' V V' lo hi g) : FInv c O s' V' noZ := h.ws.inv
theorem cnt (h : Wr c O s s' V V' lo hi g) : Cnt c s' V' := h.ws.cnt
theorem fr (h : Wr c O s s' V V' lo hi g) : Fr c O s s' := h.ws.fr

theorem trans (hc : c.Ok) (a : Wr c O s s1 V V1 lo mid g) (b : Wr c O s1 s2 V1 V2 mid hi g) (h1 : lo ≤ mid) (h2 : mid ≤ hi) :
    Wr c O s s2 V V2 lo hi g where
  ws := (a.ws.trans hc b.ws).weaken (fun x => (Blks.add h1 h2).symm)
  seek := b.seek
  bytes := fun off ho => by
    rw [b.bytes off ho]
    by_cases hb : mid ≤ off ∧ off < hi
    · rw [if_pos hb, if_pos (by omega)]
    · rw [if_neg hb, a.bytes off ho]
      by_cases ha : lo ≤ off ∧ off < mid
      · rw [if_pos ha, if_pos (by omega)]
      · rw [if_neg ha, if_neg (by omega)]
  dat := fun x hx => by
    by_cases hT : Blks c mid hi x
    · exact b.dat x hT
    · have hT1 := ((Blks.add h1 h2).1 hx).resolve_right hT
      exact b.ws.dat x (a.ws.dom x hT1) hT (a.dat x hT1)

theorem datAll (a : Wr c O s s' V V' lo hi g) (h : ∀ b, b < c.dataBlocks → Dat c s.v.blk V b) : ∀ b, b < c.dataBlocks → Dat c s'.v.blk V' b := by
  intro b hb
  by_cases hT : Blks c lo hi b
  · exact a.dat b hT
  · exact a.ws.dat b hb hT (h b hb)

theorem congr (a : Wr c O s s' V V' lo hi g) (e : ∀ off, lo ≤ off → off < hi → g off = g' off) : Wr c O s s' V V' lo hi g' where
  ws := a.ws
  seek := a.seek
  dat := a.dat
  bytes := fun off ho => by
    rw [a.bytes off ho]
    by_cases hb : lo ≤ off ∧ off < hi
    · rw [if_pos hb, if_pos hb, e off hb.1 hb.2]
    · rw [if_neg hb, if_neg hb]

end Wr

/-- `SeekInode`, `BranchBlock` and a store in the data buffer. -/
theorem seekPoke (hc : c.Ok) (h : FInv c O s V noZ) (hd : s.ci.dirty = true) (hcnt : Cnt c s V) (hs : SeekAll c s.ci V)
    {start len : Nat} (hl : 0 < len) (hsp : start % c.blockSize + len ≤ c.blockSize) (hin : start < c.sizeMax) (f : Nat → Byte) :
    ∃ s1, seekData c (start / c.blockSize) s = (.ok (decide (V (posOf c (start / c.blockSize)) ≠ 0)), s1) ∧ Ro c V s s1 ∧
      ((branchBlock c 2 true s1 = (.error .enospc, s1) ∧ freeBlockCount c s.v < brCost c s V 2 (posOf c (start / c.blockSize))) ∨
       ∃ s2 s3 V3, branchBlock c 2 true s1 = (.ok (), s2) ∧ pokeData (start % c.blockSize) len f s2 = (.ok (), s3) ∧
         Wr c O s s3 V V3 start (start + len) (fun off => f (off - start)) ∧ s3.ci.logical = start / c.blockSize ∧ NewAt c s3.v V3 (start / c.blockSize)) := by
  have hB := bs_pos hc
  have hlt := div_lt_data hc hin
  obtain ⟨s1, e1, hr, hbr⟩ := seekBranch hc h hd hcnt hs hlt true
  refine ⟨s1, e1, hr, ?_⟩
  rcases hbr with ⟨e2, hlt'⟩ | ⟨V', s2, e2, hws, hco, hna, hct, _⟩
  · exact Or.inl ⟨e2, hlt'⟩
  right
  obtain ⟨c1, c2⟩ := hct rfl
  obtain ⟨n1, n2⟩ := hws.new _ rfl
  obtain ⟨p1, p2, p3⟩ := WS.poke hc hws.inv hws.cnt hlt n1 n2 (patch (s2.v.blk (V' (posOf c (start / c.blockSize)))).bytes (start % c.blockSize) len f)
  refine ⟨s2, { s2 with v := s2.v.write (V' (posOf c (start / c.blockSize))) (.data (patch (s2.v.blk (V' (posOf c (start / c.blockSize)))).bytes (start % c.blockSize) len f)) }, V', e2, ?_, ?_, hco.logical, p1.newAt hc hlt hna⟩
  · unfold pokeData
    simp only [run_bind, run_get, c2, liftV, run_modify]
  · have e3 : (s2.v.blk (V' (posOf c (start / c.blockSize)))).bytes = cont c s.v.blk V (start / c.blockSize) := by
      rw [← c1]; unfold cont; rw [if_neg n1]
    have hwk := (hws.trans hc p1).weaken (T1 := fun x => x = start / c.blockSize) (by simp)
    have hone : ∀ b, Blks c start (start + len) b → b = start / c.blockSize := by
      rintro b ⟨off, g1, g2, rfl⟩
      have := (off_same (start := start) (k := off - start) hB (by omega)).1
      rwa [show start + (off - start) = off by omega] at this
    refine ⟨hwk.weaken (fun b => ?_), hco.seekAll hc hlt, ?_, fun b hb => (hone b hb) ▸ p3⟩
    · constructor
      · rintro rfl; exact ⟨start, Nat.le_refl _, by omega, rfl⟩
      · rintro ⟨off, g1, g2, rfl⟩
        have := (off_same (start := start) (k := off - start) hB (by omega)).1
        rwa [show start + (off - start) = off by omega] at this
    · intro off ho
      have hol := div_lt_data hc ho
      unfold byteAt
      by_cases hb : off / c.blockSize = start / c.blockSize
      · rw [hb]
        show cont c (s2.v.write (V' (posOf c (start / c.blockSize))) _).blk V' (start / c.blockSize) _ = _
        rw [p2, e3]
        unfold patch
        have d1 := Nat.div_add_mod off c.blockSize
        have d2 := Nat.div_add_mod start c.blockSize
        rw [hb] at d1
        by_cases hm : start % c.blockSize ≤ off % c.blockSize ∧ off % c.blockSize < start % c.blockSize + len
        · rw [if_pos hm, if_pos (by omega)]
          congr 1; omega
        · rw [if_neg hm, if_neg (by omega)]
      · have k := ((hws.trans hc p1).keep (off / c.blockSize) hol (by simp [hb])).1
        rw [k, if_neg]
        rintro ⟨h1, h2⟩
        apply hb
        have := (off_same (start := start) (k := off - start) hB (by omega)).1
        rwa [show start + (off - start) = off by omega] at this

theorem writeUnaligned_spec (hc : c.Ok) (h : FInv c O s V noZ) (hd : s.ci.dirty = true) (hcnt : Cnt c s V) (hs : SeekAll c s.ci V)
    {start len : Nat} (hl : 0 < len) (hsp : start % c.blockSize + len ≤ c.blockSize) (hin : start < c.sizeMax) (f : Nat → Byte) :
    (∃ s1, writeUnaligned c start len f s = (.error .enospc, s1) ∧ Ro c V s s1 ∧
      freeBlockCount c s.v < brCost c s V 2 (posOf c (start / c.blockSize))) ∨
    ∃ s' V', writeUnaligned c start len f s = (.ok (), s') ∧
      Wr c O s s' V V' start (start + len) (fun off => f (off - start)) ∧ s'.ci.logical = start / c.blockSize ∧ NewAt c s'.v V' (start / c.blockSize) := by
  obtain ⟨s1, e1, hr, hx⟩ := seekPoke hc h hd hcnt hs hl hsp hin f
  have hsame := span_of (bs_pos hc) hl hsp
  unfold writeUnaligned
  rw [if_neg (by simp [hsame.symm])]
  simp only [run_bind, e1]
  rcases hx with ⟨e2, hlt⟩ | ⟨s2, s3, V3, e2, e3, hw, hlg, hna⟩
  · left; exact ⟨s1, by rw [e2], hr, hlt⟩
  · right; exact ⟨s3, V3, by rw [e2]; exact e3, hw, hlg, hna⟩

/-- No block lies wholly beyond the end of the file. -/
def Bnd (c : Conf) (V : Pos → Nat) (size : Nat) : Prop := ∀ p, PosOk c p → V p ≠ 0 → p.first c * c.blockSize < size

/-- Bytes of blocks beyond the end are zero. -/
theorem Bnd.zero (hc : c.Ok) {size : Nat} (hb : Bnd c V size) (D : Nat → Blk) {off : Nat} (ho : off < c.sizeMax)
    (h : size ≤ off / c.blockSize * c.blockSize) : V (posOf c (off / c.blockSize)) = 0 ∧ byteAt c D V off = 0 := by
  have hlt := div_lt_data hc ho
  obtain ⟨p1, p2, p3⟩ := posOf_ok hc hlt
  have h0 : V (posOf c (off / c.blockSize)) = 0 := by
    apply Decidable.byContradiction; intro hn
    have := hb _ p1 hn
    rw [p3] at this; omega
  refine ⟨h0, ?_⟩
  unfold byteAt cont; rw [if_pos h0]

/-- Growing within the first `size'` bytes. -/
theorem Wr.bnd (hc : c.Ok) (w : Wr c O s s' V V' lo hi g) {size size' : Nat} (hb : Bnd c V size) (h1 : size ≤ size') (h2 : hi ≤ size') : Bnd c V' size' := by
  intro p hp hn
  rcases w.ws.grow p hp hn with h | ⟨b, hT, _, hf⟩
  · exact Nat.lt_of_lt_of_le (hb p hp h) h1
  · obtain ⟨off, g1, g2, rfl⟩ := hT
    have : p.first c * c.blockSize ≤ off / c.blockSize * c.blockSize := Nat.mul_le_mul_right _ hf
    have := Nat.div_mul_le_self off c.blockSize
    omega

theorem expandPrepare_spec (hc : c.Ok) (h : FInv c O s V noZ) (hd : s.ci.dirty = true) (hnb : s.ci.nodeBuf ≠ none) (hcnt : Cnt c s V)
    (hs : SeekAll c s.ci V) (hsz : s.ci.node.size < c.sizeMax) (hb : Bnd c V s.ci.node.size) :
    (∃ s1, expandPrepare c s = (.error .enospc, s1) ∧ Ro c V s s1 ∧ Short c s1 V (s.ci.node.size / c.blockSize)) ∨
    ∃ s' V' hi, expandPrepare c s = (.ok (), s') ∧ Wr c O s s' V V' s.ci.node.size hi (fun _ => 0) ∧ s.ci.node.size ≤ hi ∧
      Bnd c V' s.ci.node.size ∧ tot s'.v = tot s.v ∧
      (∀ off, s.ci.node.size ≤ off → off < c.sizeMax → byteAt c s'.v.blk V' off = 0) ∧
      (s'.ci.pData = s.ci.pData ∧ s'.ci.logical = s.ci.logical ∨ s'.ci.pData = none ∨ s'.ci.logical = s.ci.node.size / c.blockSize) ∧
      (∀ b, Blks c s.ci.node.size hi b → b = s.ci.node.size / c.blockSize ∧ V (posOf c b) ≠ 0) := by
  have hB := bs_pos hc
  have hmod := Nat.mod_lt s.ci.node.size hB
  have hdm := Nat.div_add_mod s.ci.node.size c.blockSize
  unfold expandPrepare
  simp only [run_bind, run_get]
  rw [if_neg (by simp [hd, hnb])]
  by_cases h0 : s.ci.node.size % c.blockSize = 0
  · simp only [h0, ne_eq, not_true_eq_false, if_false, run_pure]
    right
    refine ⟨s, V, s.ci.node.size, rfl, .refl h hcnt hs _, Nat.le_refl _, hb, rfl, ?_, Or.inl ⟨rfl, rfl⟩, fun b ⟨off, g1, g2, _⟩ => by omega⟩
    intro off h1 h2
    refine (hb.zero hc _ h2 ?_).2
    have : s.ci.node.size / c.blockSize ≤ off / c.blockSize := Nat.div_le_div_right h1
    have := Nat.mul_le_mul_right c.blockSize this
    rw [Nat.mul_comm] at hdm; omega
  · simp only [h0, ne_eq, not_false_eq_true, if_true]
    obtain ⟨s1, e1, hr, hx⟩ := seekPoke hc h hd hcnt hs (start := s.ci.node.size) (len := c.blockSize - s.ci.node.size % c.blockSize)
      (by omega) (by omega) hsz (fun _ => 0)
    simp only [run_bind, e1]
    -- offsets beyond the block of the end
    have hfar : ∀ off, off < c.sizeMax → s.ci.node.size + (c.blockSize - s.ci.node.size % c.blockSize) ≤ off →
        V (posOf c (off / c.blockSize)) = 0 ∧ byteAt c s.v.blk V off = 0 := by
      intro off h1 h2
      refine hb.zero hc _ h1 ?_
      have : s.ci.node.size / c.blockSize + 1 ≤ off / c.blockSize := by
        rw [Nat.le_div_iff_mul_le hB, Nat.add_mul, Nat.one_mul, Nat.mul_comm]; omega
      have := Nat.mul_le_mul_right c.blockSize this
      rw [Nat.add_mul, Nat.one_mul, Nat.mul_comm (s.ci.node.size / c.blockSize)] at this
      omega
    by_cases hz : V (posOf c (s.ci.node.size / c.blockSize)) = 0
    · simp only [hz, ne_eq, not_true_eq_false, decide_false, Bool.false_eq_true, if_false, run_pure]
      right
      refine ⟨s1, V, s.ci.node.size, rfl, .of_ro hr h hcnt _, Nat.le_refl _, hb, by rw [hr.v], ?_, ?_, fun b ⟨off, g1, g2, _⟩ => by omega⟩
      · intro off h1 h2
        by_cases hn : s.ci.node.size + (c.blockSize - s.ci.node.size % c.blockSize) ≤ off
        · rw [hr.v]; exact (hfar off h2 hn).2
        · have := (off_same (start := s.ci.node.size) (k := off - s.ci.node.size) hB (by omega)).1
          rw [show s.ci.node.size + (off - s.ci.node.size) = off by omega] at this
          unfold byteAt cont
          rw [this, if_pos hz]
      · obtain ⟨s1', e1', _, hco, hp1⟩ := seekData_ro hc h (div_lt_data hc hsz) hs
        rw [e1] at e1'; injection e1' with _ e1'; subst e1'
        exact Or.inr (Or.inr hco.logical)
    · simp only [hz, ne_eq, not_false_eq_true, decide_true, if_true]
      rcases hx with ⟨e2, hsh⟩ | ⟨s2, s3, V3, e2, e3, hw, hlg, _⟩
      · left; exact ⟨s1, by simp only [run_bind, e2], hr, by unfold Short; rw [hr.v, brCost_v hr.v]; exact hsh⟩
      · right
        have hblk : ∀ b, Blks c s.ci.node.size (s.ci.node.size + (c.blockSize - s.ci.node.size % c.blockSize)) b →
            b = s.ci.node.size / c.blockSize ∧ V (posOf c b) ≠ 0 := by
          rintro b ⟨off, k1, k2, rfl⟩
          have := (off_same (start := s.ci.node.size) (k := off - s.ci.node.size) hB (by omega)).1
          rw [show s.ci.node.size + (off - s.ci.node.size) = off by omega] at this
          rw [this]; exact ⟨rfl, hz⟩
        refine ⟨s3, V3, _, by simp only [run_bind, e2, e3], hw, by omega, ?_, ?_, ?_, Or.inr (Or.inr hlg), hblk⟩
        · intro p hp hn
          rcases hw.ws.grow p hp hn with g1 | ⟨b, hT, g0, g2⟩
          · exact hb p hp g1
          · exact absurd g0 (hblk b hT).2
        · exact hw.ws.totEq (fun b hT => (hblk b hT).2)
        · intro off h1 h2
          rw [hw.bytes off h2]
          by_cases hn : s.ci.node.size + (c.blockSize - s.ci.node.size % c.blockSize) ≤ off
          · rw [if_neg (by omega)]; exact (hfar off h2 hn).2
          · rw [if_pos (by omega)]

theorem writeAligned_spec (hc : c.Ok) (h : FInv c O s V noZ) (hd : s.ci.dirty = true) (hcnt : Cnt c s V) (hs : SeekAll c s.ci V)
    {start count : Nat} (hcount : 0 < count) (hin : start + count ≤ c.dataBlocks) (hpd : s.ci.pData = none ∨ s.ci.logical < start) (f : Nat → Byte) :
    (∃ s1 V1, writeAligned c start count f s = (.error .enospc, s1) ∧
      Wr c O s s1 V V1 (start * c.blockSize) (start * c.blockSize) (fun off => f (off - start * c.blockSize)) ∧ Short c s1 V1 start) ∨
    ∃ n s' V', writeAligned c start count f s = (.ok n, s') ∧ 0 < n ∧ n ≤ count ∧
      Wr c O s s' V V' (start * c.blockSize) (start * c.blockSize + n * c.blockSize) (fun off => f (off - start * c.blockSize)) ∧
      (n < count → Short c s' V' (start + n)) := by
  have hB := bs_pos hc
  obtain ⟨n, full, s', V', e, _, i2, i3, i4, _, ws, sk, _, ct⟩ := writeLoop_spec hc start count f count 0 0 s V h hd hcnt hs hin
    (Nat.zero_le _) (by omega) (fun h => absurd rfl h) (by simpa using hpd)
  have hwr : Wr c O s s' V V' (start * c.blockSize) (start * c.blockSize + n * c.blockSize) (fun off => f (off - start * c.blockSize)) := by
    refine ⟨ws.weaken (fun b => ⟨?_, ?_⟩), sk, ?_, ?_⟩
    · rintro ⟨h1, h2⟩
      refine ⟨b * c.blockSize, Nat.mul_le_mul_right _ (by omega), ?_, (Nat.mul_div_cancel _ hB).symm⟩
      rw [← Nat.add_mul]; exact (Nat.mul_lt_mul_right hB).2 (by omega)
    · rintro ⟨off, h1, h2, rfl⟩
      rw [Nat.add_zero, Nat.le_div_iff_mul_le hB, Nat.div_lt_iff_lt_mul hB, Nat.add_mul]
      exact ⟨h1, h2⟩
    · intro off ho
      have hol := div_lt_data hc ho
      have hdm := Nat.div_add_mod off c.blockSize
      have hmod := Nat.mod_lt off hB
      by_cases hb : start ≤ off / c.blockSize ∧ off / c.blockSize < start + n
      · have h1 := (ct (off / c.blockSize - start) (by omega) (by omega)).1
        rw [show start + (off / c.blockSize - start) = off / c.blockSize by omega] at h1
        have m1 := Nat.mul_le_mul_right c.blockSize hb.1
        have m2 := Nat.mul_le_mul_right c.blockSize (show off / c.blockSize + 1 ≤ start + n from hb.2)
        rw [Nat.add_mul, Nat.add_mul, Nat.one_mul] at m2
        rw [Nat.mul_comm] at hdm
        rw [if_pos (by omega)]
        unfold byteAt; rw [h1]
        show f _ = f _
        congr 1
        rw [Nat.sub_mul]; omega
      · have k := (ws.keep (off / c.blockSize) hol (by omega)).1
        unfold byteAt; rw [k, if_neg]
        rintro ⟨h1, h2⟩
        apply hb
        rw [Nat.le_div_iff_mul_le hB, Nat.div_lt_iff_lt_mul hB, Nat.add_mul]
        exact ⟨h1, h2⟩
    · rintro b ⟨off, h1, h2, rfl⟩
      have k1 : start ≤ off / c.blockSize := (Nat.le_div_iff_mul_le hB).2 h1
      have k2 : off / c.blockSize < start + n := by rw [Nat.div_lt_iff_lt_mul hB, Nat.add_mul]; exact h2
      have := (ct (off / c.blockSize - start) (by omega) (by omega)).2
      rwa [show start + (off / c.blockSize - start) = off / c.blockSize by omega] at this
  unfold writeAligned
  simp only [run_bind, e]
  by_cases hf : full = true ∧ n = 0
  · left
    refine ⟨s', V', by rw [if_pos hf]; rfl, ?_⟩
    have hsh := (i4 hf.1).2
    rw [hf.2] at hwr hsh; exact ⟨by simpa using hwr, hsh⟩
  · right
    refine ⟨n, s', V', by rw [if_neg hf]; rfl, ?_, i2, hwr, fun hl => ?_⟩
    rotate_left
    · cases hfu : full with
      | false => have := i3 hfu; omega
      | true => exact (i4 hfu).2
    cases hfu : full with
    | false => have := i3 hfu; omega
    | true => simp [hfu] at hf; omega

end RedFs
