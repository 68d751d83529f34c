import Verif.Lemmas.Volume
set_option linter.unusedSimpArgs false
set_option linter.unusedVariables false
namespace RedFs
open M Bitmap Vol

variable {c : Conf}

/-- What every operation other than commit, rollback and mount may do to the volume: it
leaves everything that belongs to the committed state alone. -/
structure Step (c : Conf) (v v' : Vol) : Prop where
  base : v'.base = v.base
  stale : v'.stale = v.stale
  cur : v'.cur = v.cur
  comm : v'.comm = v.comm
  mounted : v'.mounted = v.mounted
  transMask : v'.transMask = v.transMask
  seq : v'.seq = v.seq
  hist : v'.hist = v.hist
  ok : ImapOk c v'
  space : SpaceOk c v'
  low : ∀ x, x < 3 → v'.blk x = v.blk x ∧ v'.dirty x = v.dirty x
  cmtNode : c.inline = false → ∀ k, k < c.nodeCount →
    v'.blk (nodeBlk c v.comm k) = v.blk (nodeBlk c v.comm k)
  keep : ∀ x, InMap c x → cmtBit c v x = true → v'.blk x = v.blk x ∧ v'.dirty x = v.dirty x
  dirtyMono : ∀ x, v.dirty x = true → v'.dirty x = true
  dev : (∀ x, v.dirty x = false → v.blk x = v.base x) → ∀ x, v'.dirty x = false → v'.blk x = v'.base x
  idle : v'.branched = false → v.branched = false ∧ v'.work = v.work
  afree : v.almostFree ≤ v'.almostFree

namespace Step
theorem cbits {v v' : Vol} (hc : c.Ok) (s : Step c v v') {x : Nat} (hx : InMap c x) : cmtBit c v' x = cmtBit c v x := by
  unfold cmtBit; rw [s.comm]
  exact imapBit_congr hc (fun hi k hk => s.cmtNode hi k hk) hx

theorem refl {v : Vol} (h : ImapOk c v) (hs : SpaceOk c v) : Step c v v where
  base := rfl
  stale := rfl
  cur := rfl
  comm := rfl
  mounted := rfl
  transMask := rfl
  seq := rfl
  hist := rfl
  ok := h
  space := hs
  low := fun _ _ => ⟨rfl, rfl⟩
  cmtNode := fun _ _ _ => rfl
  keep := fun _ _ _ => ⟨rfl, rfl⟩
  dirtyMono := fun _ h => h
  dev := fun h x => h x
  idle := fun h => ⟨h, rfl⟩
  afree := Nat.le_refl _

theorem trans {v v1 v2 : Vol} (hc : c.Ok) (a : Step c v v1) (b : Step c v1 v2) : Step c v v2 where
  base := b.base.trans a.base
  stale := b.stale.trans a.stale
  cur := b.cur.trans a.cur
  comm := b.comm.trans a.comm
  mounted := b.mounted.trans a.mounted
  transMask := b.transMask.trans a.transMask
  seq := b.seq.trans a.seq
  hist := b.hist.trans a.hist
  ok := b.ok
  space := b.space
  low := fun x hx => ⟨(b.low x hx).1.trans (a.low x hx).1, (b.low x hx).2.trans (a.low x hx).2⟩
  cmtNode := fun hi k hk => by
    have := b.cmtNode hi k hk; rw [a.comm] at this; rw [this]; exact a.cmtNode hi k hk
  keep := fun x hx hb => by
    have := b.keep x hx (by rw [a.cbits hc hx]; exact hb)
    have := a.keep x hx hb
    simp_all
  dirtyMono := fun x hx => b.dirtyMono x (a.dirtyMono x hx)
  dev := fun h => b.dev (a.dev h)
  idle := fun h => by
    obtain ⟨h1, e1⟩ := b.idle h
    obtain ⟨h2, e2⟩ := a.idle h1
    exact ⟨h2, e1.trans e2⟩
  afree := Nat.le_trans a.afree b.afree

/-- The invariant survives. -/
theorem inv {v v' : Vol} (hc : c.Ok) (s : Step c v v') (h : VolInv c v) : VolInv c v' where
  ok := s.ok
  space := s.space
  commFree := by
    rw [s.comm, h.commFree]; apply countIn_congr; intro x h1 h2
    have := Conf.Ok.first_ge c
    rw [s.cbits hc ⟨by omega, h2⟩]
  commNext := by rw [s.comm]; exact h.commNext
  clean := fun x hx hb => by
    rw [s.cbits hc hx] at hb
    rw [(s.keep x hx hb).2]; exact h.clean x hx hb
  sel := fun e => by rw [s.base, s.cur, s.comm]; exact h.sel (by rw [← s.mounted]; exact e)
  master := fun e => by rw [s.base]; exact h.master (by rw [← s.mounted]; exact e)
  low := fun x hx => by rw [(s.low x hx).2]; exact h.low x hx
  seq := by rw [s.comm, s.seq]; exact h.seq
  idle := fun hb => by
    obtain ⟨h1, e⟩ := s.idle hb
    rw [e, s.comm]; exact h.idle h1
  dev := s.dev h.dev
  epochs := fun e => by rw [s.hist]; exact h.epochs (by rw [← s.mounted]; exact e)

/-- Changes to the run-time flags alone. -/
theorem flags {v v' : Vol} (h : ImapOk c v) (hs : SpaceOk c v) (h1 : v'.blk = v.blk) (h2 : v'.base = v.base) (h3 : v'.dirty = v.dirty)
    (h4 : v'.mr = v.mr) (h5 : v'.cur = v.cur) (h6 : v'.almostFree = v.almostFree) (h7 : v'.seq = v.seq)
    (h8 : v'.hist = v.hist) (h9 : v'.branched = false → v.branched = false) (h10 : v'.stale = v.stale)
    (h11 : v'.mounted = v.mounted) (h12 : v'.transMask = v.transMask) : Step c v v' := by
  obtain ⟨blk, base, dirty, stale, mr, cur, branched, af, ur, mt, ro, tm, seq, nw, hist⟩ := v
  obtain ⟨blk', base', dirty', stale', mr', cur', branched', af', ur', mt', ro', tm', seq', nw', hist'⟩ := v'
  simp only at h1 h2 h3 h4 h5 h6 h7 h8 h10 h11 h12
  subst h1 h2 h3 h4 h5 h6 h7 h8 h10 h11 h12
  exact { base := rfl, stale := rfl, cur := rfl, comm := rfl, mounted := rfl, transMask := rfl, seq := rfl, hist := rfl,
          ok := ⟨h.cur, h.cmt, h.clean⟩, space := ⟨hs.free, hs.afree, hs.next⟩,
          low := fun _ _ => ⟨rfl, rfl⟩, cmtNode := fun _ _ _ => rfl, keep := fun _ _ _ => ⟨rfl, rfl⟩,
          dirtyMono := fun _ h => h, dev := fun h x => h x, idle := fun h => ⟨h9 h, rfl⟩, afree := Nat.le_refl _ }

/-- Writing a block that the committed state does not use. -/
theorem write {v : Vol} (hc : c.Ok) (h : ImapOk c v) (hs : SpaceOk c v) {b : Nat} (x : Blk) (hb : InMap c b)
    (hn : cmtBit c v b = false) (hbr : v.branched = true) : Step c v (v.write b x) := by
  have ht := Conf.Ok.table_ge c
  have hne : ∀ m : Metaroot, c.inline = false → ∀ k, k < c.nodeCount → nodeBlk c m k ≠ b := by
    intro m hi k hk e
    have h1 := nodeBlk_lt m hi hk; have := hb.1; omega
  have hblk : ∀ m, c.inline = false → ∀ k, k < c.nodeCount → (v.write b x).blk (nodeBlk c m k) = v.blk (nodeBlk c m k) := by
    intro m hi k hk; rw [write_blk, if_neg (hne m hi k hk)]
  have hbit : ∀ m y, InMap c y → imapBit c (v.write b x).blk m y = imapBit c v.blk m y := fun m y hy =>
    imapBit_congr hc (fun hi k hk => hblk m hi k hk) hy
  have hcnt := freeCount_congr (c := c) (v := v) (v' := v.write b x) (fun y hy => hbit v.work y hy) (fun y hy => hbit v.comm y hy)
  refine { base := rfl, stale := rfl, cur := rfl, comm := rfl, mounted := rfl, transMask := rfl, seq := rfl, hist := rfl,
           ok := ⟨?_, ?_, ?_⟩, space := ⟨?_, ?_, hs.next⟩,
           low := ?_, cmtNode := fun hi k hk => hblk _ hi k hk, keep := ?_, dirtyMono := ?_, dev := ?_, idle := ?_, afree := Nat.le_refl _ }
  · intro hi k hk; rw [write_work, hblk _ hi k hk]; exact h.cur hi k hk
  · intro hi k hk; rw [write_comm, hblk _ hi k hk]; exact h.cmt hi k hk
  · intro hi k hk
    rw [write_comm, hblk _ hi k hk, write_dirty, if_neg (hne _ hi k hk)]; exact h.clean hi k hk
  · rw [hcnt.1]; exact hs.free
  · rw [hcnt.2]; exact hs.afree
  · intro y hy
    have : y ≠ b := by have := hb.1; omega
    simp [this]
  · intro y hy hcm
    have : y ≠ b := by rintro rfl; rw [hn] at hcm; cases hcm
    simp [this]
  · intro y hy; rw [write_dirty]; split <;> simp_all
  · intro hd y hy
    rw [write_dirty] at hy
    rw [write_blk]
    split at hy
    · cases hy
    · rename_i hne; rw [if_neg hne]; exact hd y hy
  · intro hf; rw [show (v.write b x).branched = v.branched from rfl, hbr] at hf; cases hf

end Step

/-- `RedImapBlockSet` obeys the discipline. -/
theorem BlkSet.step {v v' : Vol} {b : Nat} {alloc : Bool} (hc : c.Ok) (hv : VolInv c v) (h : BlkSet c v v' b alloc) (hb : InMap c b) :
    Step c v v' where
  base := h.base
  stale := h.stale
  cur := h.cur
  comm := h.comm
  mounted := h.mounted
  transMask := h.transMask
  seq := h.seq
  hist := h.hist
  ok := h.ok
  space := h.space
  low := fun x hx => ⟨h.low x hx, h.dirtyHi x (Or.inl hx)⟩
  cmtNode := h.cmtNode
  keep := fun x hx hcm => by
    refine ⟨?_, h.dirtyHi x (Or.inr hx.1)⟩
    by_cases e : x = b
    · subst e
      cases ha : alloc
      · have hd := hv.clean x hx hcm
        rw [h.blkB ha, onDisk_clean v x hd, hv.dev x hd]
      · exact h.blkHi x hx.1 (Or.inr ha)
    · exact h.blkHi x hx.1 (Or.inl e)
  dirtyMono := h.dirtyMono
  dev := fun hd x hx => h.diskEq x (hd x) hx
  idle := fun hf => by rw [h.branched] at hf; cases hf
  afree := by
    rw [hv.space.afree, h.space.afree]
    refine countIn_mono (fun x h1 h2 hx => ?_)
    have hf := Conf.Ok.first_ge c
    have hxm : InMap c x := ⟨by omega, h2⟩
    rw [h.bits x hxm, h.cbits x hxm]
    split
    · next e =>
      subst e
      cases ha : alloc
      · simpa using (by simpa using hx : curBit c v x = false ∧ cmtBit c v x = true).2
      · rw [h.wasCmt ha h1] at hx; simp at hx
    · exact hx

theorem Alloced.step {v v' : Vol} {b : Nat} (h : Alloced c v v' b) : Step c v v' where
  base := h.base
  stale := h.stale
  cur := h.cur
  comm := h.comm
  mounted := h.mounted
  transMask := h.transMask
  seq := h.seq
  hist := h.hist
  ok := h.ok
  space := h.space
  low := fun x hx => ⟨h.low x hx, h.dirtyHi x (Or.inl hx)⟩
  cmtNode := h.cmtNode
  keep := fun x hx hcm => ⟨h.blkHi x hx.1, h.dirtyHi x (Or.inr hx.1)⟩
  dirtyMono := h.dirtyMono
  dev := fun hd x hx => h.diskEq x (hd x) hx
  idle := fun hf => by rw [h.branched] at hf; cases hf
  afree := Nat.le_of_eq h.almost.symm

end RedFs
