import Verif.Lemmas.FsData
set_option linter.unusedSimpArgs false
set_option linter.unusedVariables false
namespace RedFs
open M Bitmap Vol

variable {c : Conf} {v v' v1 v2 : Vol} {ci ci' : Cinode}

/-! ### Steps -/

/-- Writing a block that the committed state does not use, also on a volume without changes. -/
theorem Step.write' (hc : c.Ok) (h : ImapOk c v) (hs : SpaceOk c v) {b : Nat} (x : Blk) (hb : InMap c b)
    (hn : cmtBit c v b = false) : Step c v (v.write b x) := by
  have s := Step.write hc (v := { v with branched := true }) (h.congr rfl rfl rfl rfl rfl) ⟨hs.free, hs.afree, hs.next⟩ x hb hn rfl
  exact { base := s.base, stale := s.stale, cur := s.cur, comm := s.comm, mounted := s.mounted, transMask := s.transMask, seq := s.seq,
          hist := s.hist, ok := ⟨s.ok.cur, s.ok.cmt, s.ok.clean⟩, space := ⟨s.space.free, s.space.afree, s.space.next⟩,
          low := s.low, cmtNode := s.cmtNode, keep := s.keep, dirtyMono := s.dirtyMono, dev := s.dev, idle := fun h => ⟨h, rfl⟩, afree := Nat.le_refl _ }

theorem Step.discard (hc : c.Ok) (h : VolInv c v) {b : Nat} (hb : InMap c b) : Step c v (v.discard b) := by
  have ht := Conf.Ok.table_ge c
  have hne : ∀ m : Metaroot, c.inline = false → ∀ k, k < c.nodeCount → nodeBlk c m k ≠ b := by
    intro m hi k hk e
    have h1 := nodeBlk_lt m hi hk; have := hb.1; omega
  have hblk : ∀ m, c.inline = false → ∀ k, k < c.nodeCount → (v.discard b).blk (nodeBlk c m k) = v.blk (nodeBlk c m k) := by
    intro m hi k hk; rw [discard_blk, if_neg (hne m hi k hk)]
  have hbit : ∀ m y, InMap c y → imapBit c (v.discard b).blk m y = imapBit c v.blk m y := fun m y hy =>
    imapBit_congr hc (fun hi k hk => hblk m hi k hk) hy
  have hcnt := freeCount_congr (c := c) (v := v) (v' := v.discard b) (fun y hy => hbit v.work y hy) (fun y hy => hbit v.comm y hy)
  refine { base := rfl, stale := rfl, cur := rfl, comm := rfl, mounted := rfl, transMask := rfl, seq := rfl, hist := rfl,
           ok := ⟨?_, ?_, ?_⟩, space := ⟨?_, ?_, h.space.next⟩,
           low := ?_, cmtNode := fun hi k hk => hblk _ hi k hk, keep := ?_, dirtyMono := fun _ h => h, dev := ?_, idle := fun h => ⟨h, rfl⟩, afree := Nat.le_refl _ }
  · intro hi k hk; rw [discard_work, hblk _ hi k hk]; exact h.ok.cur hi k hk
  · intro hi k hk; rw [discard_comm, hblk _ hi k hk]; exact h.ok.cmt hi k hk
  · intro hi k hk
    rw [discard_comm, hblk _ hi k hk]; exact h.ok.clean hi k hk
  · rw [hcnt.1]; exact h.space.free
  · rw [hcnt.2]; exact h.space.afree
  · intro y hy
    have : y ≠ b := by have := hb.1; omega
    simp [this]
  · intro y hy hcm
    refine ⟨?_, rfl⟩
    rw [discard_blk]
    split
    · next e =>
      subst e
      have hd := h.clean y hy hcm
      rw [onDisk_clean v y hd, h.dev y hd]
    · rfl
  · intro hd y hy
    rw [discard_dirty] at hy
    rw [discard_blk]
    split
    · next e => subst e; exact onDisk_clean v y hy
    · exact hd y hy

theorem Step.inodes (hc : c.Ok) (h : ImapOk c v) (hs : SpaceOk c v) (hbr : v.branched = true) (n : Nat) :
    Step c v (v.setWork { v.work with freeInodes := n }) := by
  have hw : (v.setWork { v.work with freeInodes := n }).work.entries = v.work.entries := by rw [setWork_work]
  have hblk : (v.setWork { v.work with freeInodes := n }).blk = v.blk := rfl
  have hbit : ∀ y, InMap c y → curBit c (v.setWork { v.work with freeInodes := n }) y = curBit c v y := by
    intro y hy; unfold curBit; rw [hblk]; exact imapBit_congr_entries hw y
  have hcbit : ∀ y, InMap c y → cmtBit c (v.setWork { v.work with freeInodes := n }) y = cmtBit c v y := by
    intro y hy; unfold cmtBit; rw [hblk, setWork_comm]
  have hcnt := freeCount_congr (c := c) hbit hcbit
  have hnode : ∀ k, nodeBlk c (v.setWork { v.work with freeInodes := n }).work k = nodeBlk c v.work k := by
    intro k; unfold nodeBlk; rw [hw]
  refine { base := rfl, stale := rfl, cur := rfl, comm := setWork_comm _ _, mounted := rfl, transMask := rfl, seq := rfl, hist := rfl,
           ok := ⟨?_, ?_, ?_⟩, space := ⟨?_, ?_, ?_⟩,
           low := fun _ _ => ⟨rfl, rfl⟩, cmtNode := fun _ _ _ => rfl, keep := fun _ _ _ => ⟨rfl, rfl⟩, dirtyMono := fun _ h => h,
           dev := fun h => h, idle := (fun h => by rw [show (v.setWork { v.work with freeInodes := n }).branched = v.branched from rfl, hbr] at h; cases h), afree := Nat.le_refl _ }
  · intro hi k hk; rw [hnode]; exact h.cur hi k hk
  · rw [setWork_comm]; exact h.cmt
  · rw [setWork_comm]; exact h.clean
  · rw [hcnt.1, setWork_work]; exact hs.free
  · rw [hcnt.2]; exact hs.afree
  · rw [setWork_work]; exact hs.next

theorem branchBuf_clean {src dst : Nat} (hd : v.dirty src = false) (hdev : v.blk src = v.base src) (hne : src ≠ dst) :
    v.branchBuf src dst = v.write dst (v.blk src) := by
  unfold Vol.branchBuf Vol.discard
  have : (v.write dst (v.blk src)).onDisk src = v.blk src := by
    unfold Vol.onDisk; rw [write_dirty, if_neg hne, hd, hdev]; rfl
  rw [this]
  unfold Vol.poke
  congr 1
  funext i
  by_cases e : i = src
  · subst e; simp [hne]
  · simp [e]

theorem slotSet (hc : c.Ok) (hv : VolInv c v) {i : Nat} (hi : c.inodeValid i = true) (w alloc : Bool)
    (hne : curBit c v (slotBlk c i w) ≠ alloc) :
    ∃ v', inodeBitSet c i w alloc v = (.ok (), v') ∧ BlkSet c v v' (slotBlk c i w) alloc ∧ VolInv c v' := by
  have hm := slot_inMap hc hi w
  have hr := slot_range hc hi w
  have hset := imapBlockSet_spec hc hv.ok hv.space hm hne (fun _ h => by omega)
  rcases hy : imapBlockSet c (slotBlk c i w) alloc v with ⟨r, v'⟩
  obtain ⟨rfl, hs⟩ := wp_run hset hy
  refine ⟨v', ?_, hs, (hs.step hc hv hm).inv hc hv⟩
  unfold inodeBitSet; rw [if_pos hi, hy]

/-! ### Changes to the inode table -/

/-- Only the slots of inode `i` have changed. -/
structure Tbl (c : Conf) (v v' : Vol) (i : Nat) : Prop where
  step : Step c v v'
  useReserved : v'.useReserved = v.useReserved
  readOnly : v'.readOnly = v.readOnly
  bits : ∀ x, InMap c x → (∀ w, x ≠ slotBlk c i w) → curBit c v' x = curBit c v x
  blk : ∀ x, c.tableStart ≤ x → (∀ w, x ≠ slotBlk c i w) → v'.blk x = v.blk x

namespace Tbl
variable {i : Nat}
theorem trans (hc : c.Ok) (a : Tbl c v v1 i) (b : Tbl c v1 v2 i) : Tbl c v v2 i :=
  ⟨a.step.trans hc b.step, b.useReserved.trans a.useReserved, b.readOnly.trans a.readOnly,
   fun x hx h => (b.bits x hx h).trans (a.bits x hx h), fun x hx h => (b.blk x hx h).trans (a.blk x hx h)⟩

theorem write (hc : c.Ok) (hv : VolInv c v) (hi : c.inodeValid i = true) (w : Bool) (x : Blk)
    (hn : cmtBit c v (slotBlk c i w) = false) : Tbl c v (v.write (slotBlk c i w) x) i :=
  ⟨.write' hc hv.ok hv.space x (slot_inMap hc hi w) hn, rfl, rfl, fun y hy _ => curBit_write hc (slot_range hc hi w).1 hy,
   fun y hy h => by rw [write_blk, if_neg (h w)]⟩

theorem set (hc : c.Ok) (hv : VolInv c v) (hi : c.inodeValid i = true) {w alloc : Bool} (h : BlkSet c v v' (slotBlk c i w) alloc) :
    Tbl c v v' i :=
  ⟨h.step hc hv (slot_inMap hc hi w), h.useReserved, h.readOnly, fun y hy g => by rw [h.bits y hy, if_neg (g w)],
   fun y hy g => h.blkHi y hy (Or.inl (g w))⟩

theorem discard (hc : c.Ok) (hv : VolInv c v) (hi : c.inodeValid i = true) (w : Bool) : Tbl c v (v.discard (slotBlk c i w)) i :=
  ⟨.discard hc hv (slot_inMap hc hi w), rfl, rfl, fun y hy _ => curBit_poke hc (slot_range hc hi w).1 hy,
   fun y hy h => by rw [discard_blk, if_neg (h w)]⟩

theorem inodes (hc : c.Ok) (hv : VolInv c v) (hbr : v.branched = true) (n : Nat) :
    Tbl c v (v.setWork { v.work with freeInodes := n }) i :=
  ⟨.inodes hc hv.ok hv.space hbr n, rfl, rfl,
   fun y hy _ => by
     unfold curBit
     exact imapBit_congr_entries (by rw [setWork_work]) y,
   fun _ _ _ => rfl⟩

theorem alloc (hc : c.Ok) (hi : c.inodeValid i = true) (t : Tbl c v v' i) {x : Nat} (h1 : c.firstAlloc ≤ x) (h2 : x < c.blockCount) :
    curBit c v' x = curBit c v x ∧ v'.blk x = v.blk x := by
  have hf := Conf.Ok.first_ge c
  have hn : ∀ w, x ≠ slotBlk c i w := by intro w e; have := (slot_range hc hi w).2; omega
  exact ⟨t.bits x ⟨by omega, h2⟩ hn, t.blk x (by omega) hn⟩

/-- Free space is not affected. -/
theorem space (hc : c.Ok) (hi : c.inodeValid i = true) (hv : VolInv c v) (t : Tbl c v v' i) :
    v'.work.freeBlocks = v.work.freeBlocks ∧ v'.almostFree = v.almostFree := by
  have hf := Conf.Ok.first_ge c
  rw [hv.space.free, hv.space.afree, t.step.space.free, t.step.space.afree]
  constructor
  · apply countIn_congr; intro x h1 h2
    rw [(t.alloc hc hi h1 h2).1, t.step.cbits hc ⟨by omega, h2⟩]
  · apply countIn_congr; intro x h1 h2
    rw [(t.alloc hc hi h1 h2).1, t.step.cbits hc ⟨by omega, h2⟩]

theorem slots (hc : c.Ok) (hi : c.inodeValid i = true) (t : Tbl c v v' i) {j : Nat} (hj : j ≠ i) (hv : c.inodeValid j = true) (w : Bool) :
    curBit c v' (slotBlk c j w) = curBit c v (slotBlk c j w) ∧ v'.blk (slotBlk c j w) = v.blk (slotBlk c j w) := by
  have hn : ∀ w', slotBlk c j w ≠ slotBlk c i w' := fun w' e => hj (slot_inj hc hv hi e).1
  exact ⟨t.bits _ (slot_inMap hc hv w) hn, t.blk _ (slot_range hc hv w).1 hn⟩

theorem frame (hc : c.Ok) (hi : c.inodeValid i = true) (h : Wf c v) (t : Tbl c v v' i) {j : Nat} (hj : j ≠ i) :
    inodeAt c v'.blk (curBit c v') j = inodeAt c v.blk (curBit c v) j ∧
    (∀ p, PosOk c p → tree c v' j p = tree c v j p) ∧ RedFs.files c v' j = RedFs.files c v j ∧
    (∀ ci, ci.ino = j → Mnt c v ci → Mnt c v' ci) :=
  h.frame hc t.step (fun hv w => (t.slots hc hi hj hv w).1) (fun hv w _ => (t.slots hc hi hj hv w).2)
    (fun p hp hn => by
      obtain ⟨r1, r2, _⟩ := h.fs.range j p hp hn
      exact (t.alloc hc hi r1 r2).2)

/-- The volume is well-formed again if the tree of `i` has not changed. -/
theorem wf (hc : c.Ok) (hi : c.inodeValid i = true) (h : Wf c v) (t : Tbl c v v' i)
    (hT : ∀ p, PosOk c p → tree c v' i p = tree c v i p)
    (hone : ¬ (curBit c v' (slotBlk c i false) = true ∧ curBit c v' (slotBlk c i true) = true))
    (hlive : ∀ w, curBit c v' (slotBlk c i w) = true → ∃ n, v'.blk (slotBlk c i w) = .inode n)
    (hfree : v'.work.freeInodes + (if liveIn c (curBit c v') i then 1 else 0) = v.work.freeInodes + (if liveIn c (curBit c v) i then 1 else 0))
    (hnode : ∀ n, inodeAt c v'.blk (curBit c v') i = some n → (n.mode = modeReg ∨ n.mode = modeDir) ∧ n.size ≤ c.sizeMax ∧
      Bnd c (tree c v i) n.size ∧
      (c.inodeBlocks = true → n.blocks = countIn (fun b => decide (tree c v i (posOf c b) ≠ 0)) 0 c.dataBlocks)) :
    Ch c v v' (· = i) := by
  have hvol := t.step.inv hc h.vol
  have hfr := fun j hj => t.frame hc hi h (j := j) hj
  have hval : 2 ≤ i ∧ i < 2 + c.inodeCount := by unfold Conf.inodeValid at hi; simpa using hi
  have hwf : Wf c v' := by
    refine ⟨hvol, ?_, h.step_cfs hc t.step⟩
    refine h.fs.update hc (i := i) (fun j hj => (hfr j hj).1) (fun j hj => (hfr j hj).2.1) (fun j hj hv w => (t.slots hc hi hj hv w).1)
      (fun j hj hv w _ => (t.slots hc hi hj hv w).2) (fun _ => hone) (fun w _ hw => hlive w hw) ?_ ?_ ?_ ?_ ?_ ?_ ?_ ?_
    · have hu := countIn_update (p := fun j => !liveIn c (curBit c v') j) (q := fun j => !liveIn c (curBit c v) j) hval.1 hval.2 (by
        intro j g1 g2 g3
        have hj : c.inodeValid j = true := by unfold Conf.inodeValid; simp; omega
        unfold liveIn
        rw [(t.slots hc hi g3 hj _).1, (t.slots hc hi g3 hj _).1])
      have hf := h.fs.free
      rw [← hf] at hu
      cases ha : liveIn c (curBit c v') i <;> cases hb : liveIn c (curBit c v) i <;> simp [ha, hb] at hu hfree <;> omega
    · intro j p hj hp hn
      obtain ⟨r1, r2, r3⟩ := h.fs.range j p hp hn
      obtain ⟨a1, a2⟩ := t.alloc hc hi r1 r2
      exact ⟨by rw [a1]; exact r3, a2⟩
    · intro p hp hn
      have e : treeOf c v'.blk (curBit c v') i p = treeOf c v.blk (curBit c v) i p := hT p hp
      rw [e] at hn ⊢
      obtain ⟨r1, r2, r3⟩ := h.fs.range i p hp hn
      refine ⟨r1, r2, by rw [(t.alloc hc hi r1 r2).1]; exact r3, ?_⟩
      intro j q hj hq he
      exact hj (h.fs.inj i j p q hp hq hn he.symm).1.symm
    · intro p q hp hq hn he
      have e : treeOf c v'.blk (curBit c v') i p = treeOf c v.blk (curBit c v) i p := hT p hp
      have e2 : treeOf c v'.blk (curBit c v') i q = treeOf c v.blk (curBit c v) i q := hT q hq
      rw [e] at hn he; rw [e2] at he
      exact (h.fs.inj i i p q hp hq hn he).2
    · intro p hp hn
      have e : treeOf c v'.blk (curBit c v') i p = treeOf c v.blk (curBit c v) i p := hT p hp
      rw [e] at hn ⊢
      obtain ⟨r1, r2, r3⟩ := h.fs.range i p hp hn
      rw [(t.alloc hc hi r1 r2).2]; exact h.fs.kind i p hp hn
    · intro p hp hn
      have e : treeOf c v'.blk (curBit c v') i p = treeOf c v.blk (curBit c v) i p := hT p hp
      rw [e] at hn; exact h.fs.inside i p hp hn
    · intro x g1 g2 g3
      rw [(t.alloc hc hi g1 g2).1] at g3
      obtain ⟨j, p, hp, e⟩ := h.fs.full x g1 g2 g3
      by_cases hj : j = i
      · subst hj; exact Or.inr ⟨p, hp, (hT p hp).trans e⟩
      · exact Or.inl ⟨j, p, hj, hp, e⟩
    · intro n hn
      obtain ⟨g1, g2, g3, g4⟩ := hnode n hn
      refine ⟨g1, g2, g3.congr hT, fun hib => ?_⟩
      rw [g4 hib]
      apply countIn_congr; intro b _ hb'
      rw [show treeOf c v'.blk (curBit c v') i (posOf c b) = tree c v i (posOf c b) from hT _ (posOf_ok hc hb').1]
  exact ⟨hwf, t.step, t.useReserved, t.readOnly, fun j hj => (hfr j hj).2.2.1, fun ci hi' => (hfr ci.ino hi').2.2.2 ci rfl, fun j hj => (hfr j hj).2.1⟩

end Tbl

end RedFs
