import Verif.Lemmas.WriteAll
set_option linter.unusedSimpArgs false
set_option linter.unusedVariables false
namespace RedFs
open M Bitmap Vol

variable {c : Conf} {O : Nat → Prop} {s s' s1 s2 : DS} {V V' V1 V2 : Pos → Nat} {Z : Pos → Prop}

/-- What the file operations leave alone, apart from fields of the inode. -/
structure FrN (c : Conf) (O : Nat → Prop) (s s' : DS) : Prop where
  qt : Qt c s.v s'.v
  ino : s'.ci.ino = s.ci.ino
  nodeBuf : s'.ci.nodeBuf = s.ci.nodeBuf
  dirty : s'.ci.dirty = s.ci.dirty
  dir : s'.ci.dir = s.ci.dir
  branched : s'.ci.branched = s.ci.branched
  oth : ∀ x, O x → s'.v.blk x = s.v.blk x
  tbits : ∀ x, c.tableStart ≤ x → x < c.firstAlloc → curBit c s'.v x = curBit c s.v x
  tblk : ∀ x, c.tableStart ≤ x → x < c.firstAlloc → s.ci.nodeBuf ≠ some x → s'.v.blk x = s.v.blk x

theorem Fr.toN (h : Fr c O s s') : FrN c O s s' :=
  ⟨h.qt, h.ino, h.nodeBuf, h.dirty, h.dir, h.branched, h.oth, h.tbits, h.tblk⟩

namespace FrN
theorem refl (h : VolInv c s.v) : FrN c O s s := (Fr.refl h).toN
theorem trans (hc : c.Ok) (a : FrN c O s s1) (b : FrN c O s1 s2) : FrN c O s s2 where
  qt := a.qt.trans hc b.qt
  ino := b.ino.trans a.ino
  nodeBuf := b.nodeBuf.trans a.nodeBuf
  dirty := b.dirty.trans a.dirty
  dir := b.dir.trans a.dir
  branched := b.branched.trans a.branched
  oth := fun x hx => (b.oth x hx).trans (a.oth x hx)
  tbits := fun x h1 h2 => (b.tbits x h1 h2).trans (a.tbits x h1 h2)
  tblk := fun x h1 h2 h3 => (b.tblk x h1 h2 (by rw [a.nodeBuf]; exact h3)).trans (a.tblk x h1 h2 h3)
end FrN

/-- Change of inode fields other than the pointers. -/
structure NodeSet (c : Conf) (O : Nat → Prop) (s s' : DS) (V : Pos → Nat) (Z : Pos → Prop) : Prop where
  inv : FInv c O s' V Z
  frn : FrN c O s s'
  new : ∀ p, PosOk c p → V p ≠ 0 → (NewB c s'.v (V p) ↔ NewB c s.v (V p))
  blk : ∀ p, PosOk c p → V p ≠ 0 → s'.v.blk (V p) = s.v.blk (V p)
  tot : tot s'.v = tot s.v
  free : s'.v.work.freeBlocks = s.v.work.freeBlocks

theorem FInv.setNode (hc : c.Ok) (h : FInv c O s V Z) (hd : s.ci.dirty = true) (n : InodeNode) (he : n.entries = s.ci.node.entries) :
    NodeSet c O s (s.setNode n) V Z := by
  obtain ⟨nb, hnb⟩ := h.nb_isSome
  have hnbr := h.nb_range hc hnb
  obtain ⟨hd1, hd2, hd3⟩ := h.dirty hd nb hnb
  have hf := Conf.Ok.first_ge c
  have hnbm : InMap c nb := ⟨hnbr.1, by have := hc.fits; omega⟩
  have hv : (s.setNode n).v = s.v.write nb (.inode n) := by simp [DS.setNode, hnb, hd]
  have hqt : Qt c s.v (s.setNode n).v := by
    rw [hv]; exact .write hc h.vol _ hnbm hd2 (h.vol.branched_of hd3 hd2)
  have hbits : ∀ x, InMap c x → curBit c (s.setNode n).v x = curBit c s.v x := by
    intro x hx; rw [hv]; exact curBit_write hc hnbm.1 hx
  have hblk : ∀ x, x ≠ nb → (s.setNode n).v.blk x = s.v.blk x := by
    intro x hx; rw [hv, write_blk, if_neg hx]
  have hne : ∀ p, PosOk c p → V p ≠ 0 → V p ≠ nb := by
    intro p hp hn; have := (h.range p hp hn).1; omega
  refine { inv := ?_, frn := ?_, new := ?_, blk := fun p hp hn => hblk _ (hne p hp hn), tot := by rw [hv]; rfl, free := by rw [hv]; rfl }
  · refine h.content (hqt.step.inv hc h.vol) rfl rfl ?_ (fun x h1 h2 => hbits x ⟨by omega, h2⟩)
      (fun p hp _ hn => hblk _ (hne p hp hn)) he
    intro _ x hx
    have : x = nb := by
      have : s.ci.nodeBuf = some x := hx
      rw [hnb] at this; injection this with this; exact this.symm
    subst this
    refine ⟨by rw [hv, write_blk, if_pos rfl]; rfl, ?_, ?_⟩
    · rw [hqt.step.cbits hc hnbm]; exact hd2
    · rw [hbits x hnbm]; exact hd3
  · refine { qt := hqt, ino := rfl, nodeBuf := rfl, dirty := rfl, dir := rfl, branched := rfl, oth := ?_, tbits := ?_, tblk := ?_ }
    · intro x hx
      have := (h.oth x hx).1
      exact hblk x (by omega)
    · intro x h1 h2; exact hbits x ⟨h1, by have := hc.fits; omega⟩
    · intro x h1 h2 h3; apply hblk; rintro rfl; exact h3 hnb
  · intro p hp hn
    have hm := h.inMap hp hn
    unfold NewB
    rw [hbits _ hm, hqt.step.cbits hc hm]

theorem SeekAll.node {ci : Cinode} (h : SeekAll c ci V) (n : InodeNode) : SeekAll c { ci with node := n } V := by
  intro b hb hi
  obtain ⟨h1, h2⟩ := h b hb hi
  refine ⟨fun hl => ?_, fun hl => ?_⟩
  · obtain ⟨g1, g2, g3, g4⟩ := h1 hl
    refine ⟨g1, g2, ?_, g4⟩
    generalize posOf c b = p at g3
    rcases p with e | ⟨e | ⟨e | ⟨p, k3⟩, k2⟩, k1⟩ <;> exact g3
  · have g := h2 hl
    generalize posOf c b = p at g
    rcases p with e | ⟨e | ⟨e | ⟨p, k3⟩, k2⟩, k1⟩ <;> exact g

theorem NodeSet.dat (hc : c.Ok) (w : NodeSet c O s s' V Z) (h : ∀ b, b < c.dataBlocks → Dat c s.v.blk V b) : ∀ b, b < c.dataBlocks → Dat c s'.v.blk V b := by
  intro b hb h0
  rw [w.blk _ (posOf_ok hc hb).1 h0]; exact h b hb h0

theorem NodeSet.byteAt (hc : c.Ok) (w : NodeSet c O s s' V Z) {off : Nat} (ho : off < c.sizeMax) :
    byteAt c s'.v.blk V off = byteAt c s.v.blk V off := by
  have hok := posOf_ok hc (div_lt_data hc ho)
  unfold RedFs.byteAt cont
  by_cases h0 : V (posOf c (off / c.blockSize)) = 0
  · rw [if_pos h0, if_pos h0]
  · rw [if_neg h0, if_neg h0, w.blk _ hok.1 h0]

/-- The file described by a state: what the operations on file data rely on and restore. -/
structure FOk (c : Conf) (O : Nat → Prop) (s : DS) (V : Pos → Nat) : Prop where
  inv : FInv c O s V noZ
  cnt : Cnt c s V
  bnd : Bnd c V s.ci.node.size
  size : s.ci.node.size ≤ c.sizeMax
  /-- the blocks of the file hold file data -/
  dat : ∀ b, b < c.dataBlocks → Dat c s.v.blk V b

/-- An operation that fails leaves the file as it was. -/
structure Fail (c : Conf) (O : Nat → Prop) (s s' : DS) (V V' : Pos → Nat) : Prop where
  ok : FOk c O s' V'
  fr : Fr c O s s'
  seek : SeekAll c s'.ci V'
  bytes : ∀ off, off < s.ci.node.size → byteAt c s'.v.blk V' off = byteAt c s.v.blk V off
  tot : tot s'.v = tot s.v
  alloc : ∀ b, b < c.dataBlocks → (V' (posOf c b) ≠ 0 ↔ V (posOf c b) ≠ 0)
  new : ∀ b, b < c.dataBlocks → NewAt c s.v V b → NewAt c s'.v V' b

/-- The space does not suffice to make the blocks of the range, and the last block of the file if
the range begins beyond the end, writable. -/
def NoRoom (c : Conf) (s : DS) (V : Pos → Nat) (start len : Nat) : Prop :=
  ∀ L : List Pos, L.Nodup → (∀ p ∈ L, PosOk c p) →
    (∀ b, Blks c start (start + len) b ∨ (s.ci.node.size < start ∧ b = s.ci.node.size / c.blockSize) → ∀ p, brSet 2 (posOf c b) p → p ∈ L) →
    freeBlockCount c s.v < costL c s V L

/-- `n` bytes have been written at `start`. -/
structure Wrote (c : Conf) (O : Nat → Prop) (s s' : DS) (V V' : Pos → Nat) (start n : Nat) (f : Nat → Byte) : Prop where
  ok : FOk c O s' V'
  frn : FrN c O s s'
  seek : SeekAll c s'.ci V'
  size : s'.ci.node.size = max s.ci.node.size (start + n)
  mode : s'.ci.node.mode = s.ci.node.mode
  nlink : s'.ci.node.nlink = s.ci.node.nlink
  pinode : s'.ci.node.pinode = s.ci.node.pinode
  bytes : ∀ off, off < s'.ci.node.size → byteAt c s'.v.blk V' off =
    if start ≤ off ∧ off < start + n then f (off - start)
    else if off < s.ci.node.size then byteAt c s.v.blk V off else 0
  totLe : tot s'.v ≤ tot s.v
  totEq : (∀ off, start ≤ off → off < start + n → V (posOf c (off / c.blockSize)) ≠ 0) → tot s'.v = tot s.v
  rsv : s.v.useReserved = false → tot s'.v = tot s.v ∨ c.reserved ≤ tot s'.v
  alloc : ∀ b, b < c.dataBlocks → (V' (posOf c b) ≠ 0 ↔ V (posOf c b) ≠ 0 ∨ Blks c start (start + n) b)
  spent : ∀ L : List Pos, L.Nodup → (∀ p ∈ L, PosOk c p) →
    (∀ b, Blks c start (start + n) b ∨ (s.ci.node.size < start ∧ b = s.ci.node.size / c.blockSize) → ∀ p, brSet 2 (posOf c b) p → p ∈ L) →
    s.v.work.freeBlocks ≤ s'.v.work.freeBlocks + L.length

/-- The parts of a write after the preparation.  The outcome of the middle part. -/
theorem writeMiddle_spec (hc : c.Ok) (h : FInv c O s V noZ) (hd : s.ci.dirty = true) (hcnt : Cnt c s V) (hs : SeekAll c s.ci V)
    {start first rem : Nat} (hal : (start + first) % c.blockSize = 0) (hin : start + first + rem ≤ c.sizeMax) (hrem : c.blockSize ≤ rem)
    (hpd : s.ci.pData = none ∨ s.ci.logical < (start + first) / c.blockSize) (f : Nat → Byte) :
    (first = 0 ∧ ∃ s1 V1, writeMiddle c start first rem f s = (.error .enospc, s1) ∧
      Wr c O s s1 V V1 start start (fun off => f (off - start)) ∧ Short c s1 V1 (start / c.blockSize)) ∨
    ∃ done r2 s' V', writeMiddle c start first rem f s = (.ok (done, r2), s') ∧ first ≤ done ∧ done + r2 ≤ first + rem ∧
      (0 < r2 → r2 < c.blockSize ∧ (start + done) % c.blockSize = 0 ∧ done + r2 = first + rem) ∧ (first = 0 → 0 < done) ∧
      Wr c O s s' V V' (start + first) (start + done) (fun off => f (off - start)) ∧
      (done + r2 < first + rem → Short c s' V' ((start + done) / c.blockSize)) := by
  have hB := bs_pos hc
  have hdm := Nat.div_add_mod (start + first) c.blockSize
  rw [hal, Nat.add_zero, Nat.mul_comm] at hdm
  have hcount : 0 < rem / c.blockSize := Nat.div_pos hrem hB
  have hrd := Nat.div_add_mod rem c.blockSize
  have hrm := Nat.mod_lt rem hB
  rw [Nat.mul_comm] at hrd
  have hin2 : (start + first) / c.blockSize + rem / c.blockSize ≤ c.dataBlocks := by
    unfold Conf.sizeMax at hin
    apply Nat.le_of_mul_le_mul_right _ hB
    rw [Nat.add_mul, Nat.mul_comm c.dataBlocks]; omega
  unfold writeMiddle
  simp only [run_bind, run_attempt]
  rcases writeAligned_spec hc h hd hcnt hs hcount hin2 hpd (fun k => f (first + k)) with ⟨s1, V1, e, w, hsh⟩ | ⟨n, s1, V1, e, h1, h2, w, hsh⟩
  · rw [e]
    simp only
    rw [hdm] at w
    by_cases hf : 0 < first
    · right
      rw [if_pos hf]
      refine ⟨first, 0, s1, V1, rfl, Nat.le_refl _, by omega, fun h => absurd h (by omega), fun h => absurd h (by omega), ?_, fun _ => hsh⟩
      exact w.congr (fun off a b => by omega)
    · left
      rw [if_neg hf]
      have : first = 0 := by omega
      subst this
      exact ⟨rfl, s1, V1, rfl, w.congr (fun off a b => by omega), hsh⟩
  · right
    rw [e]
    simp only [run_pure]
    rw [hdm] at w
    have hw : Wr c O s s1 V V1 (start + first) (start + (first + n * c.blockSize)) (fun off => f (off - start)) := by
      rw [← Nat.add_assoc]
      exact w.congr (fun off a b => by show f _ = f _; congr 1; omega)
    have hmn : n * c.blockSize ≤ rem / c.blockSize * c.blockSize := Nat.mul_le_mul_right _ h2
    have hn0 : 0 < n * c.blockSize := Nat.mul_pos h1 hB
    refine ⟨_, _, s1, V1, rfl, by omega, ?_, ?_, fun _ => by omega, hw, fun hlt => ?_⟩
    rotate_left 2
    · rw [← Nat.add_assoc, Nat.add_mul_div_right _ _ hB]
      apply hsh
      apply Decidable.byContradiction; intro hn
      have : n = rem / c.blockSize := by omega
      subst this
      rw [if_neg (by omega)] at hlt
      omega
    · split <;> omega
    · by_cases hlt : n < rem / c.blockSize
      · rw [if_pos hlt]; intro h; omega
      · rw [if_neg hlt]
        have : n = rem / c.blockSize := by omega
        subst this
        intro _
        refine ⟨by omega, ?_, by omega⟩
        rw [← Nat.add_assoc, Nat.add_mul_mod_self_right]; exact hal

theorem writeTail_spec (hc : c.Ok) (h : FInv c O s V noZ) (hd : s.ci.dirty = true) (hcnt : Cnt c s V) (hs : SeekAll c s.ci V)
    {start done rem : Nat} (hal : (start + done) % c.blockSize = 0) (hin : start + done + rem ≤ c.sizeMax) (hr0 : 0 < rem) (hrem : rem < c.blockSize)
    (f : Nat → Byte) :
    ∃ n s' V', writeTail c start done rem f s = (.ok n, s') ∧ (n = done ∨ n = done + rem) ∧
      Wr c O s s' V V' (start + done) (start + n) (fun off => f (off - start)) ∧
      (n = done → Short c s' V' ((start + done) / c.blockSize)) := by
  unfold writeTail
  simp only [run_bind, run_attempt]
  rcases writeUnaligned_spec hc h hd hcnt hs (start := start + done) hr0 (by omega) (by omega) (fun k => f (done + k)) with ⟨s1, e, r, hsh⟩ | ⟨s', V', e, w, _⟩
  · exact ⟨done, s1, V, by rw [e]; rfl, Or.inl rfl, .of_ro r h hcnt _, fun _ => by unfold Short; rw [r.v, brCost_v r.v]; exact hsh⟩
  · refine ⟨done + rem, s', V', by rw [e]; rfl, Or.inr rfl, ?_, fun h => by omega⟩
    rw [← Nat.add_assoc]
    exact w.congr (fun off a b => by show f _ = f _; congr 1; omega)

/-- The body of a write up to the update of the size: `first`, middle and tail parts, when the bytes
between the end of the file and `start` read as zero. -/
theorem writeBody_spec (hc : c.Ok) (h : FInv c O s V noZ) (hd : s.ci.dirty = true) (hcnt : Cnt c s V) (hs : SeekAll c s.ci V)
    {start first rem : Nat} (hf1 : start % c.blockSize + first ≤ c.blockSize) (hpos : 0 < first + rem)
    (hf2 : 0 < rem → (start + first) % c.blockSize = 0) (hf3 : first = 0 → c.blockSize ≤ rem)
    (hin : start + first + rem ≤ c.sizeMax)
    (hpd : rem < c.blockSize ∨ s.ci.pData = none ∨ s.ci.logical < (start + first) / c.blockSize) (f : Nat → Byte) :
    (∃ s1 V1, (do
        onlyIf (first ≠ 0) (writeUnaligned c start first f) ()
        let r ← onlyIf (c.blockSize ≤ rem) (writeMiddle c start first rem f) (first, rem)
        onlyIf (0 < r.2) (writeTail c start r.1 r.2 f) r.1 : DM Nat) s = (.error .enospc, s1) ∧
      Wr c O s s1 V V1 start start (fun off => f (off - start)) ∧ Short c s1 V1 (start / c.blockSize)) ∨
    ∃ n s' V', (do
        onlyIf (first ≠ 0) (writeUnaligned c start first f) ()
        let r ← onlyIf (c.blockSize ≤ rem) (writeMiddle c start first rem f) (first, rem)
        onlyIf (0 < r.2) (writeTail c start r.1 r.2 f) r.1 : DM Nat) s = (.ok n, s') ∧ 0 < n ∧ n ≤ first + rem ∧
      Wr c O s s' V V' start (start + n) (fun off => f (off - start)) ∧
      (n < first + rem → Short c s' V' ((start + n) / c.blockSize)) := by
  have hB := bs_pos hc
  -- first part
  have hfirst : (∃ s1, onlyIf (first ≠ 0) (writeUnaligned c start first f) () s = (.error .enospc, s1) ∧ Ro c V s s1 ∧
        Short c s1 V (start / c.blockSize)) ∨
      ∃ s1 V1, onlyIf (first ≠ 0) (writeUnaligned c start first f) () s = (.ok (), s1) ∧
        Wr c O s s1 V V1 start (start + first) (fun off => f (off - start)) ∧
        (rem < c.blockSize ∨ s1.ci.pData = none ∨ s1.ci.logical < (start + first) / c.blockSize) := by
    by_cases h0 : first = 0
    · right
      refine ⟨s, V, onlyIf_neg (by simp [h0]) _ _ _, ?_, hpd⟩
      subst h0; exact .refl h hcnt hs _
    · rw [onlyIf_pos h0]
      rcases writeUnaligned_spec hc h hd hcnt hs (start := start) (len := first) (by omega) hf1 (by omega) f with ⟨s1, e, r, hsh⟩ | ⟨s', V', e, w, hl, _⟩
      · exact Or.inl ⟨s1, e, r, by unfold Short; rw [r.v, brCost_v r.v]; exact hsh⟩
      · right
        refine ⟨s', V', e, w, ?_⟩
        by_cases hr : rem < c.blockSize
        · exact Or.inl hr
        · right; right
          rw [hl]
          have := hf2 (by omega)
          have d1 := Nat.div_add_mod (start + first) c.blockSize
          have d2 := Nat.div_add_mod start c.blockSize
          apply Nat.lt_of_mul_lt_mul_left (a := c.blockSize)
          omega
  simp only [run_bind]
  rcases hfirst with ⟨s1, e1, r1, hsh⟩ | ⟨s1, V1, e1, w1, hp1⟩
  · left; exact ⟨s1, V, by rw [e1], .of_ro r1 h hcnt _, hsh⟩
  rw [e1]
  simp only
  have hd1 : s1.ci.dirty = true := by rw [w1.fr.dirty]; exact hd
  -- middle part
  have hmid : (first = 0 ∧ ∃ s2 V2, onlyIf (c.blockSize ≤ rem) (writeMiddle c start first rem f) (first, rem) s1 = (.error .enospc, s2) ∧
        Wr c O s s2 V V2 start start (fun off => f (off - start)) ∧ Short c s2 V2 (start / c.blockSize)) ∨
      ∃ done r2 s2 V2, onlyIf (c.blockSize ≤ rem) (writeMiddle c start first rem f) (first, rem) s1 = (.ok (done, r2), s2) ∧
        first ≤ done ∧ done + r2 ≤ first + rem ∧ 0 < done ∧
        (0 < r2 → r2 < c.blockSize ∧ (start + done) % c.blockSize = 0 ∧ done + r2 = first + rem) ∧
        Wr c O s s2 V V2 start (start + done) (fun off => f (off - start)) ∧
        (done + r2 < first + rem → Short c s2 V2 ((start + done) / c.blockSize)) := by
    by_cases hr : c.blockSize ≤ rem
    · rw [onlyIf_pos hr]
      rcases writeMiddle_spec hc w1.inv hd1 w1.cnt w1.seek (hf2 (by omega)) hin hr (by rcases hp1 with h | h <;> first | omega | exact h) f with
        ⟨h0, s2, V2, e2, w2, hsh⟩ | ⟨done, r2, s2, V2, e2, g1, g2, g3, g4, w2, hsh⟩
      · left
        refine ⟨h0, s2, V2, e2, ?_, hsh⟩
        subst h0
        exact w1.trans hc w2 (Nat.le_refl _) (Nat.le_refl _)
      · right
        exact ⟨done, r2, s2, V2, e2, g1, g2, by by_cases h0 : first = 0; exact g4 h0; omega, g3, w1.trans hc w2 (by omega) (by omega), hsh⟩
    · right
      refine ⟨first, rem, s1, V1, onlyIf_neg hr _ _ _, Nat.le_refl _, Nat.le_refl _, ?_, fun h => ⟨by omega, hf2 h, rfl⟩, w1, fun h => by omega⟩
      apply Decidable.byContradiction; intro h; exact hr (hf3 (by omega))
  rcases hmid with ⟨h0, s2, V2, e2, w2, hsh⟩ | ⟨done, r2, s2, V2, e2, g1, g2, g0, g3, w2, hsh⟩
  · left; exact ⟨s2, V2, by rw [e2], w2, hsh⟩
  rw [e2]
  simp only
  have hd2 : s2.ci.dirty = true := by rw [w2.fr.dirty]; exact hd
  right
  by_cases hr : 0 < r2
  · rw [onlyIf_pos hr]
    obtain ⟨k1, k2, k3⟩ := g3 hr
    obtain ⟨n, s3, V3, e3, hn, w3, hsh3⟩ := writeTail_spec hc w2.inv hd2 w2.cnt w2.seek k2 (by omega) hr k1 f
    refine ⟨n, s3, V3, e3, by omega, by omega, w2.trans hc w3 (by omega) (by omega), fun hlt => ?_⟩
    have hnd : n = done := by omega
    rw [hnd]; exact hsh3 hnd
  · exact ⟨done, s2, V2, onlyIf_neg hr _ _ _, g0, by omega, w2, fun h => hsh (by omega)⟩

theorem onlyIf_same {σ α : Type} (p : Prop) [Decidable p] (m : M σ α) (d : α) (s : σ) (h : ¬ p) : onlyIf p m d s = (.ok d, s) := onlyIf_neg h m d s

theorem sub_mod_bs {B start : Nat} (hB : 0 < B) (h : start % B ≠ 0) : (start + (B - start % B)) % B = 0 := by
  have d := Nat.div_add_mod start B
  have m := Nat.mod_lt start hB
  have : start + (B - start % B) = B * (start / B + 1) := by rw [Nat.mul_add]; omega
  rw [this, Nat.mul_mod_right]

/-- `RedInodeDataWrite`. -/
theorem dataWrite_spec (hc : c.Ok) (h : FOk c O s V) (hd : s.ci.dirty = true) (hs : SeekAll c s.ci V) (start len : Nat)
    (hpd : s.ci.pData = none ∨ len < c.blockSize) (f : Nat → Byte) :
    ((c.sizeMax < start ∨ (start = c.sizeMax ∧ 0 < len)) ∧ dataWrite c start len f s = (.error .efbig, s)) ∨
    (0 < len ∧ ∃ s' V', dataWrite c start len f s = (.error .enospc, s') ∧ Fail c O s s' V V' ∧ NoRoom c s V start (min len (c.sizeMax - start))) ∨
    (len = 0 ∧ dataWrite c start len f s = (.ok 0, s)) ∨
    ∃ n s' V', dataWrite c start len f s = (.ok n, s') ∧ 0 < n ∧ n ≤ len ∧ start + n ≤ c.sizeMax ∧ Wrote c O s s' V V' start n f ∧
      (n < min len (c.sizeMax - start) → NoRoom c s V start (min len (c.sizeMax - start))) := by
  have hB := bs_pos hc
  obtain ⟨nb, hnb⟩ := h.inv.nb_isSome
  unfold dataWrite
  simp only [run_bind, run_get]
  rw [if_neg (by simp [hnb, hd])]
  by_cases hbig : c.sizeMax < start ∨ (start = c.sizeMax ∧ 0 < len)
  · left; exact ⟨hbig, by rw [if_pos hbig]; rfl⟩
  rw [if_neg hbig]
  right
  by_cases hl0 : len = 0
  · right; left; exact ⟨hl0, by rw [if_pos hl0]; rfl⟩
  rw [if_neg hl0]
  have hlen' : (if c.sizeMax - start < len then c.sizeMax - start else len) = min len (c.sizeMax - start) := by
    split <;> omega
  rw [hlen']
  generalize hL : min len (c.sizeMax - start) = L
  have hL0 : 0 < L := by omega
  have hLs : start + L ≤ c.sizeMax := by omega
  have hLl : L ≤ len := by omega
  -- the split of the range
  have hmod := Nat.mod_lt start hB
  have hsp : start % c.blockSize + writeFirst c start L ≤ c.blockSize ∧ writeFirst c start L ≤ L ∧
      (0 < L - writeFirst c start L → (start + writeFirst c start L) % c.blockSize = 0) ∧
      (writeFirst c start L = 0 → c.blockSize ≤ L - writeFirst c start L) := by
    unfold writeFirst
    by_cases hw : start % c.blockSize ≠ 0 ∨ L < c.blockSize
    · rw [if_pos hw]
      refine ⟨by omega, by omega, ?_, by omega⟩
      intro hr
      have : min L (c.blockSize - start % c.blockSize) = c.blockSize - start % c.blockSize := by omega
      rw [this]
      by_cases h0 : start % c.blockSize = 0
      · rw [h0, Nat.sub_zero, Nat.add_mod_right]; exact h0
      · exact sub_mod_bs hB h0
    · rw [if_neg hw]
      refine ⟨by omega, by omega, fun _ => by rw [Nat.add_zero]; omega, by omega⟩
  generalize writeFirst c start L = first at hsp
  obtain ⟨q1, q2, q3, q4⟩ := hsp
  generalize hrem : L - first = rem at q3 q4
  unfold writeParts
  simp only [run_bind, run_get]
  -- preparation
  have hprep : (∃ s1, onlyIf (s.ci.node.size < start) (expandPrepare c) () s = (.error .enospc, s1) ∧ Ro c V s s1 ∧
        s.ci.node.size < start ∧ Short c s1 V (s.ci.node.size / c.blockSize)) ∨
      ∃ s1 V1, onlyIf (s.ci.node.size < start) (expandPrepare c) () s = (.ok (), s1) ∧
        FInv c O s1 V1 noZ ∧ Cnt c s1 V1 ∧ SeekAll c s1.ci V1 ∧ Fr c O s s1 ∧ Bnd c V1 s.ci.node.size ∧ tot s1.v = tot s.v ∧
        (∀ off, off < s.ci.node.size → byteAt c s1.v.blk V1 off = byteAt c s.v.blk V off) ∧
        (∀ off, s.ci.node.size ≤ off → off < start → byteAt c s1.v.blk V1 off = 0) ∧
        (∀ p, PosOk c p → V p ≠ 0 → V1 p ≠ 0) ∧ (∀ b, b < c.dataBlocks → NewAt c s.v V b → NewAt c s1.v V1 b) ∧
        (rem < c.blockSize ∨ s1.ci.pData = none ∨ s1.ci.logical < (start + first) / c.blockSize) ∧
        (∀ b, b < c.dataBlocks → Dat c s1.v.blk V1 b) ∧
        (∃ T, WS c O s s1 V V1 T ∧ ∀ b, T b → (s.ci.node.size < start ∧ b = s.ci.node.size / c.blockSize) ∧ V (posOf c b) ≠ 0) := by
    by_cases hlt : s.ci.node.size < start
    · rw [onlyIf_pos hlt]
      rcases expandPrepare_spec hc h.inv hd (by simp [hnb]) h.cnt hs (by omega) h.bnd with ⟨s1, e, r, hsh⟩ | ⟨s1, V1, hi, e, w, g1, g2, g3, g4, g5, g6⟩
      · exact Or.inl ⟨s1, e, r, hlt, hsh⟩
      · right
        refine ⟨s1, V1, e, w.inv, w.cnt, w.seek, w.fr, g2, g3, ?_, ?_, ?_, ?_, ?_, w.datAll h.dat, ⟨_, w.ws, fun b hb => ⟨⟨hlt, (g6 b hb).1⟩, (g6 b hb).2⟩⟩⟩
        · intro off ho
          rw [w.bytes off (by omega), if_neg (by omega)]
        · intro off h1 h2; exact g4 off h1 (by omega)
        · exact w.ws.mono
        · exact fun b hb hn => w.ws.newAt hc hb hn
        · by_cases hr : rem < c.blockSize
          · exact Or.inl hr
          · right
            have hp0 : s.ci.pData = none := by rcases hpd with h | h; exact h; omega
            rcases g5 with ⟨k1, _⟩ | k | k
            · left; rw [k1]; exact hp0
            · exact Or.inl k
            · right
              rw [k]
              have := q3 (by omega)
              have d1 := Nat.div_add_mod (start + first) c.blockSize
              have d2 := Nat.div_mul_le_self s.ci.node.size c.blockSize
              apply Nat.lt_of_mul_lt_mul_left (a := c.blockSize)
              rw [Nat.mul_comm c.blockSize (s.ci.node.size / c.blockSize)]
              omega
    · right
      refine ⟨s, V, onlyIf_neg hlt _ _ _, h.inv, h.cnt, hs, .refl h.inv.vol, h.bnd, rfl, fun _ _ => rfl, fun off h1 h2 => by omega,
        fun _ _ h => h, fun _ _ h => h, ?_, h.dat, ⟨_, .refl h.inv h.cnt, fun _ h => h.elim⟩⟩
      rcases hpd with h | h
      · exact Or.inr (Or.inl h)
      · left; omega
  rcases hprep with ⟨s1, e1, r1, hlt, hsh⟩ | ⟨s1, V1, e1, i1, i2, i3, i4, i5, i6, i7, i8, i9, i11, i10, idat, T0, ws0, ht0⟩
  · left
    refine ⟨by omega, s1, V, by rw [e1], ⟨⟨r1.inv h.inv, r1.cnt h.cnt, ?_, ?_, fun b hb => by rw [r1.v]; exact h.dat b hb⟩, r1.fr h.inv, r1.seek, fun _ _ => by rw [r1.v], by rw [r1.v], fun _ _ => Iff.rfl,
      fun _ _ h => by rw [r1.v]; exact h⟩, ?_⟩
    rotate_left 2
    · intro K hl hok hsub
      exact (WS.of_ro r1 h.inv h.cnt).noRoom hsh hl hok (fun _ h => h.elim) (hsub _ (Or.inr ⟨hlt, rfl⟩))
    · rw [r1.ci.node]; exact h.bnd
    · rw [r1.ci.node]; exact h.size
  rw [e1]
  simp only
  have hd1 : s1.ci.dirty = true := by rw [i4.dirty]; exact hd
  have hbody := writeBody_spec hc i1 hd1 i2 i3 (start := start) (first := first) (rem := rem) q1 (by omega) q3 q4 (by omega) i10 f
  simp only [run_bind] at hbody
  have hsz1 : s1.ci.node.size = s.ci.node.size := i4.size
  have hsz := h.size
  -- what follows from a failure for lack of space
  have hroom : ∀ (n : Nat) (s3 : DS) (V3 : Pos → Nat), n < L → Wr c O s1 s3 V1 V3 start (start + n) (fun off => f (off - start)) →
      Short c s3 V3 ((start + n) / c.blockSize) → NoRoom c s V start L := by
    intro n s3 V3 hn w hsh K hl hok hsub
    refine (ws0.trans hc w.ws).noRoom hsh hl hok ?_ (hsub _ (Or.inl ⟨start + n, by omega, by omega, rfl⟩))
    rintro b (hb | ⟨off, g1, g2, g3⟩)
    · exact hsub b (Or.inr (ht0 b hb).1)
    · exact hsub b (Or.inl ⟨off, g1, by omega, g3⟩)
  have hsame : ∀ b, b < c.dataBlocks → (V1 (posOf c b) ≠ 0 ↔ V (posOf c b) ≠ 0) := by
    intro b hb
    rw [ws0.alloc hb]
    exact ⟨fun h => h.elim id (fun h => (ht0 b h).2), Or.inl⟩
  have hfail : ∀ (s3 : DS) (V3 : Pos → Nat), Wr c O s1 s3 V1 V3 start start (fun off => f (off - start)) → Fail c O s s3 V V3 := by
    intro s3 V3 w
    have hno : ∀ b, ¬ Blks c start start b := fun b ⟨off, g1, g2, _⟩ => by omega
    refine { ok := ⟨w.inv, w.cnt, ?_, ?_, w.datAll idat⟩, fr := i4.trans hc w.fr, seek := w.seek, bytes := ?_, tot := ?_, alloc := ?_,
             new := fun b hb hn => w.ws.newAt hc hb (i11 b hb hn) }
    · rw [w.fr.size, hsz1]
      intro p hp hn
      rcases w.ws.grow p hp hn with g | ⟨b, hT, _⟩
      · exact i5 p hp g
      · exact absurd hT (hno b)
    · rw [w.fr.size, hsz1]; exact hsz
    · intro off ho
      rw [w.bytes off (by omega), if_neg (by omega)]; exact i7 off ho
    · rw [w.ws.totEq (fun b hT => absurd hT (hno b)), i6]
    · intro b hb
      rw [w.ws.alloc hb, hsame b hb]
      exact ⟨fun h => h.resolve_right (hno b), Or.inl⟩
  -- the shared part of the program
  generalize hP : onlyIf (first ≠ 0) (writeUnaligned c start first f) () s1 = P at hbody
  rcases P with ⟨e | u, s2⟩
  · simp only at hbody ⊢
    rcases hbody with ⟨s3, V3, e3, w, hsh⟩ | ⟨n, s3, V3, e3, _⟩
    · injection e3 with e3 e4; injection e3 with e3
      subst e4; subst e3
      left
      exact ⟨by omega, s2, V3, rfl, hfail _ _ w, hroom 0 _ _ hL0 w hsh⟩
    · injection e3 with e3 _; cases e3
  simp only at hbody ⊢
  generalize hQ : onlyIf (c.blockSize ≤ rem) (writeMiddle c start first rem f) (first, rem) s2 = Q at hbody
  rcases Q with ⟨e | r, s3⟩
  · simp only at hbody ⊢
    rcases hbody with ⟨s3', V3, e3, w, hsh⟩ | ⟨n, s3', V3, e3, _⟩
    · injection e3 with e3 e4; injection e3 with e3
      subst e4; subst e3
      left
      exact ⟨by omega, s3, V3, rfl, hfail _ _ w, hroom 0 _ _ hL0 w hsh⟩
    · injection e3 with e3 _; cases e3
  simp only at hbody ⊢
  generalize hR : onlyIf (0 < r.2) (writeTail c start r.1 r.2 f) r.1 s3 = R at hbody
  rcases hbody with ⟨s4, V4, e4, w, hsh⟩ | ⟨n, s4, V4, e4, n1, n2, w, hsh⟩
  · rw [e4]
    left
    exact ⟨by omega, s4, V4, rfl, hfail _ _ w, hroom 0 _ _ hL0 w hsh⟩
  · rw [e4]
    simp only
    right; right
    have hs4 : s4.ci.node.size = s.ci.node.size := w.fr.size.trans hsz1
    have hbnd4 : Bnd c V4 (max s.ci.node.size (start + n)) := w.bnd hc i5 (by omega) (by omega)
    have hd4 : s4.ci.dirty = true := by rw [w.fr.dirty]; exact hd1
    have hby : ∀ off, off < max s.ci.node.size (start + n) → byteAt c s4.v.blk V4 off =
        if start ≤ off ∧ off < start + n then f (off - start)
        else if off < s.ci.node.size then byteAt c s.v.blk V off else 0 := by
      intro off ho
      rw [w.bytes off (by omega)]
      by_cases hx : start ≤ off ∧ off < start + n
      · rw [if_pos hx, if_pos hx]
      · rw [if_neg hx, if_neg hx]
        by_cases hy : off < s.ci.node.size
        · rw [if_pos hy]; exact i7 off hy
        · rw [if_neg hy]; exact i8 off (by omega) (by omega)
    have htl : tot s4.v ≤ tot s.v := by
      rw [← i6]; exact w.ws.totLe
    have hte : (∀ off, start ≤ off → off < start + n → V (posOf c (off / c.blockSize)) ≠ 0) → tot s4.v = tot s.v := by
      intro hx
      rw [← i6]
      apply w.ws.totEq
      rintro b ⟨off, k1, k2, rfl⟩
      exact i9 _ (posOf_ok hc (div_lt_data hc (by omega))).1 (hx off k1 k2)
    have hrs : s.v.useReserved = false → tot s4.v = tot s.v ∨ c.reserved ≤ tot s4.v := by
      intro hu
      rcases w.ws.rsv (by rw [i4.qt.useReserved]; exact hu) with g | g
      · left; rw [g, i6]
      · exact Or.inr g
    have hal : ∀ b, b < c.dataBlocks → (V4 (posOf c b) ≠ 0 ↔ V (posOf c b) ≠ 0 ∨ Blks c start (start + n) b) := by
      intro b hb
      rw [w.ws.alloc hb, hsame b hb]
    have hsp : ∀ K : List Pos, K.Nodup → (∀ p ∈ K, PosOk c p) →
        (∀ b, Blks c start (start + n) b ∨ (s.ci.node.size < start ∧ b = s.ci.node.size / c.blockSize) → ∀ p, brSet 2 (posOf c b) p → p ∈ K) →
        s.v.work.freeBlocks ≤ s4.v.work.freeBlocks + K.length := by
      intro K hl hok hsub
      have h1 := (ws0.trans hc w.ws).pay K hl hok (by
        rintro b (hb | hb)
        · exact hsub b (Or.inr (ht0 b hb).1)
        · exact hsub b (Or.inl hb))
      have h2 := costL_le (c := c) (s := s) (V := V) K
      omega
    by_cases hgrow : s4.ci.node.size < start + n
    · rw [onlyIf_pos hgrow]
      simp only [setNode, run_modify, run_pure]
      have ns := w.inv.setNode hc hd4 { s4.ci.node with size := start + n } rfl
      refine ⟨n, _, V4, rfl, n1, by omega, by omega, ?_, fun hn => hroom n _ _ hn w (hsh (by omega))⟩
      refine { ok := ⟨ns.inv, w.cnt, ?_, ?_, ns.dat hc (w.datAll idat)⟩, frn := (i4.trans hc w.fr).toN.trans hc ns.frn, seek := w.seek.node _, size := ?_, mode := ?_, nlink := ?_, pinode := ?_,
               bytes := ?_, totLe := by rw [ns.tot]; exact htl, totEq := by rw [ns.tot]; exact hte, rsv := by rw [ns.tot]; exact hrs, alloc := hal, spent := by rw [ns.free]; exact hsp }
      · show Bnd c V4 (start + n)
        rw [show start + n = max s.ci.node.size (start + n) by omega]; exact hbnd4
      · show start + n ≤ _; omega
      · show start + n = _; omega
      · exact (i4.trans hc w.fr).mode
      · exact (i4.trans hc w.fr).nlink
      · exact (i4.trans hc w.fr).pinode
      · intro off ho
        have ho' : off < start + n := ho
        rw [ns.byteAt hc (by omega)]; exact hby off (by omega)
    · rw [onlyIf_neg hgrow]
      simp only [run_pure]
      refine ⟨n, s4, V4, rfl, n1, by omega, by omega, ?_, fun hn => hroom n _ _ hn w (hsh (by omega))⟩
      have hmx : max s.ci.node.size (start + n) = s4.ci.node.size := by omega
      refine { ok := ⟨w.inv, w.cnt, by rw [← hmx]; exact hbnd4, by omega, w.datAll idat⟩, frn := (i4.trans hc w.fr).toN, seek := w.seek, size := by omega,
               mode := (i4.trans hc w.fr).mode, nlink := (i4.trans hc w.fr).nlink, pinode := (i4.trans hc w.fr).pinode,
               bytes := fun off ho => hby off (by omega), totLe := htl, totEq := hte, rsv := hrs, alloc := hal, spent := hsp }

/-- A write within one block writes all or nothing; it can only fail for lack of space for that
block and the nodes above it, unless the file has to be extended first. -/
theorem FInv.unique {V' : Pos → Nat} (h : FInv c O s V noZ) (h' : FInv c O s V' noZ) : ∀ p, PosOk c p → V p = V' p := by
  intro p
  induction p with
  | ent e => intro hp; rw [h.ent e hp (fun h => h), h'.ent e hp (fun h => h)]
  | sub a k ih =>
    intro hp
    rw [h.sub a k hp (fun h => h), h'.sub a k hp (fun h => h), ih hp.1]

theorem NewAt.congr {v : Vol} {V V' : Pos → Nat} {b : Nat} (hc : c.Ok) (hb : b < c.dataBlocks) (h : ∀ p, PosOk c p → V' p = V p)
    (hn : NewAt c v V b) : NewAt c v V' b := by
  intro p hp
  rw [h p (brSet_ok hc hb hp)]; exact hn p hp

/-- A write within one block takes at most six blocks. -/
theorem one_cover (hc : c.Ok) {size start len : Nat} (h0 : 0 < len) (hsp : start % c.blockSize + len ≤ c.blockSize) (hin : start + len ≤ c.sizeMax) :
    ∃ L : List Pos, L.Nodup ∧ (∀ p ∈ L, PosOk c p) ∧
      (∀ b, Blks c start (start + len) b ∨ (size < start ∧ b = size / c.blockSize) → ∀ p, brSet 2 (posOf c b) p → p ∈ L) ∧ L.length ≤ 6 := by
  have hB := bs_pos hc
  have hone : ∀ b, Blks c start (start + len) b → b = start / c.blockSize := by
    rintro b ⟨off, h1, h2, rfl⟩
    have hx := Nat.div_add_mod start c.blockSize
    obtain ⟨j, rfl⟩ := Nat.exists_eq_add_of_le h1
    have h3 : start + j = c.blockSize * (start / c.blockSize) + (start % c.blockSize + j) := by omega
    rw [h3, Nat.mul_add_div hB, Nat.div_eq_of_lt (show start % c.blockSize + j < c.blockSize by omega), Nat.add_zero]
  obtain ⟨L, h1, h2, h3⟩ := exists_nodup (PosOk c) (pathL (posOf c (start / c.blockSize)) ++ pathL (posOf c (size / c.blockSize)))
  refine ⟨L, h1, (fun p hp => ((h2 p).1 hp).2), ?_, ?_⟩
  · rintro b (hb | ⟨g1, rfl⟩) p hp
    · rw [hone b hb] at hp
      refine (h2 p).2 ⟨?_, brSet_ok hc (div_lt_data hc (show start < c.sizeMax by omega)) hp⟩
      rw [List.mem_append]; exact Or.inl (mem_pathL.2 hp)
    · refine (h2 p).2 ⟨?_, brSet_ok hc (div_lt_data hc (show size < c.sizeMax by omega)) hp⟩
      rw [List.mem_append]; exact Or.inr (mem_pathL.2 hp)
  · rw [List.length_append] at h3
    have h5 := pathL_length (posOf c (start / c.blockSize))
    have h6 := pathL_length (posOf c (size / c.blockSize))
    omega

theorem NoRoom.six (hc : c.Ok) {start len : Nat} (h0 : 0 < len) (hsp : start % c.blockSize + len ≤ c.blockSize) (hin : start + len ≤ c.sizeMax)
    (hno : NoRoom c s V start len) : freeBlockCount c s.v < 6 := by
  obtain ⟨L, h1, h2, h3, h4⟩ := one_cover hc (size := s.ci.node.size) h0 hsp hin
  have := hno L h1 h2 h3
  have := costL_le (c := c) (s := s) (V := V) L
  omega

theorem dataWrite_one (hc : c.Ok) (h : FOk c O s V) (hd : s.ci.dirty = true) (hs : SeekAll c s.ci V) {start len : Nat}
    (h0 : 0 < len) (hl : len < c.blockSize) (hsp : start % c.blockSize + len ≤ c.blockSize) (hin : start + len ≤ c.sizeMax) (f : Nat → Byte) :
    (∃ s' V', dataWrite c start len f s = (.error .enospc, s') ∧ Fail c O s s' V V' ∧
      (start ≤ s.ci.node.size → freeBlockCount c s.v < brCost c s V 2 (posOf c (start / c.blockSize))) ∧ freeBlockCount c s.v < 6) ∨
    ∃ s' V', dataWrite c start len f s = (.ok len, s') ∧ Wrote c O s s' V V' start len f ∧ NewAt c s'.v V' (start / c.blockSize) := by
  obtain ⟨nb, hnb⟩ := h.inv.nb_isSome
  have hrun : dataWrite c start len f s = writeParts c start len 0 f s := by
    unfold dataWrite
    simp only [run_bind, run_get]
    rw [if_neg (by simp [hnb, hd]), if_neg (by omega), if_neg (by omega)]
    rw [if_neg (by omega), show writeFirst c start len = len by unfold writeFirst; rw [if_pos (by omega)]; omega, Nat.sub_self]
  have hB := bs_pos hc
  have key : (∀ n s', dataWrite c start len f s = (.ok n, s') → n = len ∧ ∃ V1, FInv c O s' V1 noZ ∧ NewAt c s'.v V1 (start / c.blockSize)) ∧
      (∀ e s', dataWrite c start len f s = (.error e, s') → start ≤ s.ci.node.size →
        freeBlockCount c s.v < brCost c s V 2 (posOf c (start / c.blockSize))) := by
    rw [hrun]
    unfold writeParts
    simp only [run_bind, run_get]
    constructor
    · intro n s' e
      have hprep : (∃ s1, onlyIf (s.ci.node.size < start) (expandPrepare c) () s = (.error .enospc, s1)) ∨
          ∃ s1 V1, onlyIf (s.ci.node.size < start) (expandPrepare c) () s = (.ok (), s1) ∧
            FInv c O s1 V1 noZ ∧ Cnt c s1 V1 ∧ SeekAll c s1.ci V1 ∧ s1.ci.dirty = true := by
        by_cases hlt : s.ci.node.size < start
        · rw [onlyIf_pos hlt]
          rcases expandPrepare_spec hc h.inv hd (by simp [hnb]) h.cnt hs (by omega) h.bnd with ⟨s1, e, r⟩ | ⟨s1, V1, hi, e, w, g1, g2, g3, g4, g5⟩
          · exact Or.inl ⟨s1, e⟩
          · exact Or.inr ⟨s1, V1, e, w.inv, w.cnt, w.seek, w.fr.dirty.trans hd⟩
        · rw [onlyIf_neg hlt]; exact Or.inr ⟨s, V, rfl, h.inv, h.cnt, hs, hd⟩
      rcases hprep with ⟨s1, e1⟩ | ⟨s1, V1, e1, i1, c1, k1, d1⟩
      · rw [e1] at e; simp only at e; injection e with e _; cases e
      rw [e1] at e
      simp only at e
      rw [onlyIf_pos (by omega)] at e
      rcases writeUnaligned_spec hc i1 d1 c1 k1 h0 hsp (by omega) f with ⟨s2, e2, r, hlt⟩ | ⟨s2, V2, e2, w, _, hnew⟩
      · rw [e2] at e; simp only at e; injection e with e _; cases e
      rw [e2] at e
      simp only at e
      rw [onlyIf_neg (by omega)] at e
      simp only at e
      rw [onlyIf_neg (by omega)] at e
      simp only [run_get] at e
      have hfin : ∃ s3, onlyIf (s2.ci.node.size < start + len) (setNode fun n => { n with size := start + len }) () s2 = (.ok (), s3) ∧
          FInv c O s3 V2 noZ ∧ NewAt c s3.v V2 (start / c.blockSize) := by
        by_cases hx : s2.ci.node.size < start + len
        · rw [onlyIf_pos hx]
          have ns := w.inv.setNode hc (w.fr.dirty.trans d1) { s2.ci.node with size := start + len } rfl
          refine ⟨_, rfl, ns.inv, fun p hp => ?_⟩
          have := hnew p hp
          exact ⟨this.1, (ns.new p (brSet_ok hc (div_lt_data hc (by omega)) hp) this.1).2 this.2⟩
        · rw [onlyIf_neg hx]; exact ⟨_, rfl, w.inv, hnew⟩
      obtain ⟨s3, e3, i3, n3⟩ := hfin
      rw [e3] at e
      simp only [run_pure] at e
      injection e with e es; injection e with e; subst es
      exact ⟨e.symm, V2, i3, n3⟩
    · intro e' s' e hle
      rw [onlyIf_neg (by omega)] at e
      simp only at e
      rw [onlyIf_pos (by omega)] at e
      rcases writeUnaligned_spec hc h.inv hd h.cnt hs h0 hsp (by omega) f with ⟨s1, e1, r, hlt⟩ | ⟨s1, V1, e1, w, _⟩
      · exact hlt
      · rw [e1] at e
        simp only at e
        rw [onlyIf_neg (by omega)] at e
        simp only at e
        rw [onlyIf_neg (by omega)] at e
        simp only [run_get] at e
        have : ∀ (p : Prop) [Decidable p] (g : InodeNode → InodeNode), ∃ s2, onlyIf p (setNode g) () s1 = (.ok (), s2) := by
          intro p _ g
          by_cases hp : p
          · rw [onlyIf_pos hp]; exact ⟨_, rfl⟩
          · rw [onlyIf_neg hp]; exact ⟨_, rfl⟩
        obtain ⟨s2, e2⟩ := this (s1.ci.node.size < start + len) (fun n => { n with size := start + len })
        rw [e2] at e
        injection e with e _; cases e
  rcases dataWrite_spec hc h hd hs start len (Or.inr hl) f with ⟨hx, _⟩ | ⟨_, s', V', e, F, hno⟩ | ⟨hx, _⟩ | ⟨n, s', V', e, _, _, _, W, _⟩
  · omega
  · rw [show min len (c.sizeMax - start) = len by omega] at hno
    exact Or.inl ⟨s', V', e, F, key.2 _ _ e, hno.six hc h0 hsp hin⟩
  · omega
  · right
    obtain ⟨hn, V1, i1, n1⟩ := key.1 _ _ e
    subst hn
    exact ⟨s', V', e, W, n1.congr hc (div_lt_data hc (by omega)) (W.ok.inv.unique i1)⟩

end RedFs
