import Verif.Lemmas.FsInode
set_option linter.unusedSimpArgs false
set_option linter.unusedVariables false
namespace RedFs
open M Bitmap Vol

variable {c : Conf} {v v' v1 v2 : Vol} {ci ci' : Cinode}

/-! ### Finding a free inode -/

theorem findLoop_spec (hc : c.Ok) (h : Wf c v) : ∀ n i, 2 ≤ i → i + n = 2 + c.inodeCount →
    (inodeFindLoop c n i v = (.ok none, v) ∧ ∀ j, i ≤ j → j < 2 + c.inodeCount → (files c v j).isSome = true) ∨
    ∃ j, inodeFindLoop c n i v = (.ok (some j), v) ∧ i ≤ j ∧ j < 2 + c.inodeCount ∧ files c v j = none ∧
      ∀ k, i ≤ k → k < j → (files c v k).isSome = true := by
  intro n
  induction n with
  | zero => intro i h1 h2; left; exact ⟨rfl, fun j g1 g2 => by omega⟩
  | succ n ih =>
    intro i h1 h2
    have hi : c.inodeValid i = true := by unfold Conf.inodeValid; simp; omega
    have hl := live_iff h i
    rw [hi, Bool.true_and] at hl
    simp only [inodeFindLoop, run_bind, isFree_eq hc h.vol hi]
    cases hf : liveIn c (curBit c v) i
    · right
      refine ⟨i, by simp, Nat.le_refl _, by omega, ?_, fun k g1 g2 => by omega⟩
      rw [hf] at hl; simpa using hl
    · simp only [Bool.not_true, Bool.false_eq_true, if_false]
      rw [hf] at hl
      rcases ih (i + 1) (by omega) (by omega) with ⟨e, g⟩ | ⟨j, e, g1, g2, g3, g4⟩
      · left; refine ⟨e, fun j k1 k2 => ?_⟩
        by_cases ej : j = i
        · rw [ej]; exact hl
        · exact g j (by omega) k2
      · right; refine ⟨j, e, by omega, g2, g3, fun k k1 k2 => ?_⟩
        by_cases ek : k = i
        · rw [ek]; exact hl
        · exact g4 k (by omega) k2

theorem freeInodes_eq (h : Wf c v) : v.work.freeInodes = countIn (fun i => (files c v i).isNone) 2 (2 + c.inodeCount) := by
  rw [h.fs.free]
  apply countIn_congr; intro i h1 h2
  have hi : c.inodeValid i = true := by unfold Conf.inodeValid; simp; omega
  have hl := live_iff h i
  rw [hi, Bool.true_and] at hl
  rw [← hl]; cases files c v i <;> rfl

/-- The lowest free inode number.  With the POSIX-like API the root directory always exists. -/
theorem findFree_spec (hc : c.Ok) (h : Wf c v) (hroot : c.posix = true → (files c v 2).isSome = true) :
    ((∀ j, c.inodeValid j = true → (files c v j).isSome = true) ∧ inodeFindFree c v = (.error .enfile, v)) ∨
    ∃ i, inodeFindFree c v = (.ok i, v) ∧ c.inodeValid i = true ∧ files c v i = none ∧
      ∀ k, c.inodeValid k = true → k < i → (files c v k).isSome = true := by
  have hfi := freeInodes_eq h
  have hin := hc.inodes
  unfold inodeFindFree
  simp only [run_bind, run_get]
  by_cases h0 : v.work.freeInodes = 0
  · left
    rw [if_pos h0]
    refine ⟨fun j hj => ?_, rfl⟩
    unfold Conf.inodeValid at hj; simp at hj
    cases hx : files c v j
    · rw [hfi] at h0
      have : 0 < countIn (fun i => (files c v i).isNone) 2 (2 + c.inodeCount) := countIn_pos.2 ⟨j, hj.1, hj.2, by simp [hx]⟩
      omega
    · rfl
  · rw [if_neg h0]
    have hpos : 0 < countIn (fun i => (files c v i).isNone) 2 (2 + c.inodeCount) := by omega
    obtain ⟨t, t1, t2, t3⟩ := countIn_pos.1 hpos
    have hlo : 2 ≤ c.firstFreeInode ∧ c.firstFreeInode ≤ 2 + c.inodeCount ∧
        ∀ k, c.inodeValid k = true → k < c.firstFreeInode → (files c v k).isSome = true := by
      unfold Conf.firstFreeInode
      cases hp : c.posix
      · simp; intro k hk; unfold Conf.inodeValid at hk; simp at hk; omega
      · simp; refine ⟨by omega, fun k hk hk3 => ?_⟩
        unfold Conf.inodeValid at hk; simp at hk
        have : k = 2 := by omega
        rw [this]; exact hroot hp
    rcases findLoop_spec hc h (2 + c.inodeCount - c.firstFreeInode) c.firstFreeInode hlo.1 (by omega) with ⟨e, g⟩ | ⟨j, e, g1, g2, g3, g4⟩
    · exfalso
      have : (files c v t).isSome = true := by
        by_cases ht : t < c.firstFreeInode
        · exact hlo.2.2 t (by unfold Conf.inodeValid; simp; omega) ht
        · exact g t (by omega) t2
      cases hx : files c v t <;> simp [hx] at this t3
    · right
      refine ⟨j, by simp only [run_bind, e, run_pure], by unfold Conf.inodeValid; simp; omega, g3, fun k hk hkj => ?_⟩
      by_cases ht : k < c.firstFreeInode
      · exact hlo.2.2 k hk ht
      · exact g4 k (by omega) hkj

/-! ### `RedInodeCreate` -/

/-- Inode `i` has been created. -/
structure Created (c : Conf) (v v' : Vol) (ci : Cinode) (i mode parent : Nat) : Prop where
  ch : Ch c v v' (· = i)
  file : files c v' i = some (AFile.new mode parent)
  mnt : Mnt c v' ci
  ino : ci.ino = i
  dirty : ci.dirty = true
  pData : ci.pData = none
  node : ci.node.mode = mode ∧ ci.node.nlink = 1 ∧ ci.node.pinode = parent ∧ ci.node.size = 0
  was : files c v i = none
  valid : c.inodeValid i = true
  free : v'.work.freeBlocks = v.work.freeBlocks
  almost : v'.almostFree = v.almostFree
  inodes : v'.work.freeInodes + 1 = v.work.freeInodes

/-- Making the free inode `i`. -/
def createAt (c : Conf) (i pino mode : Nat) : VM Cinode := do
    let w ← inodeWriteableCopy c i
    let b := slotBlk c i w
    modify (·.write b (.inode .zero))
    inodeBitSet c i w true
    let n : InodeNode := { InodeNode.zero with mode := mode, nlink := 1, pinode := pino }
    modify (·.write b (.inode n))
    modify fun v => v.setWork { v.work with freeInodes := v.work.freeInodes - 1 }
    pure { Cinode.init i with nodeBuf := some b, node := n, dir := isDirMode mode,
                              branched := true, dirty := true }

theorem createAt_spec (hc : c.Ok) (h : Wf c v) {i : Nat} (hi : c.inodeValid i = true) (hn : files c v i = none) (pino : Nat) {mode : Nat}
    (hm : mode = modeReg ∨ mode = modeDir) : ∃ ci v', createAt c i pino mode v = (.ok ci, v') ∧ Created c v v' ci i mode pino := by
  have hl := live_iff h i
  rw [hi, hn] at hl
  simp only [Option.isSome_none, Bool.true_and] at hl
  have hl' := hl.symm
  unfold liveIn at hl'
  rw [Bool.or_eq_false_iff] at hl'
  have hcur : ∀ w, curBit c v (slotBlk c i w) = false := by intro w; cases w; exact hl'.1; exact hl'.2
  have hcone := h.cfs.one _ hi
  obtain ⟨w, hw, hcm⟩ : ∃ w, inodeWriteableCopy c i v = (.ok w, v) ∧ cmtBit c v (slotBlk c i w) = false := by
    unfold inodeWriteableCopy
    simp only [run_bind, run_get, bitGet_cmt hc h.vol hi]
    cases h0 : cmtBit c v (slotBlk c i false)
    · exact ⟨false, by simp, h0⟩
    · refine ⟨true, ?_, ?_⟩
      · have : cmtBit c v (slotBlk c i true) = false := by
          cases h1 : cmtBit c v (slotBlk c i true)
          · rfl
          · exact absurd ⟨h0, h1⟩ hcone
        simp [bitGet_cmt hc h.vol hi, this]
      · cases h1 : cmtBit c v (slotBlk c i true)
        · rfl
        · exact absurd ⟨h0, h1⟩ hcone
  unfold createAt
  simp only [run_bind, hw, run_modify, run_pure]
  have hmw := slot_inMap hc hi w
  have t1 := Tbl.write hc h.vol hi w (.inode .zero) hcm
  have hv1 := t1.step.inv hc h.vol
  have hb1 : ∀ x, InMap c x → curBit c (v.write (slotBlk c i w) (.inode .zero)) x = curBit c v x :=
    fun x hx => curBit_write hc hmw.1 hx
  obtain ⟨v2, e2, s2, hv2⟩ := slotSet hc hv1 hi w true (by rw [hb1 _ hmw, hcur]; simp)
  have t2 := Tbl.set hc hv1 hi s2
  rw [e2]
  simp only
  have hcm2 : cmtBit c v2 (slotBlk c i w) = false := by
    rw [(t1.trans hc t2).step.cbits hc hmw]; exact hcm
  generalize hN : ({ InodeNode.zero with mode := mode, nlink := 1, pinode := pino } : InodeNode) = n
  have hns : n.size = 0 ∧ n.blocks = 0 ∧ (∀ e, n.entries e = 0) ∧ n.mode = mode ∧ n.nlink = 1 ∧ n.pinode = pino := by
    rw [← hN]; exact ⟨rfl, rfl, fun _ => rfl, rfl, rfl, rfl⟩
  have t3 := Tbl.write hc hv2 hi w (.inode n) hcm2
  have hv3 := t3.step.inv hc hv2
  have hb3 : ∀ x, InMap c x → curBit c (v2.write (slotBlk c i w) (.inode n)) x = curBit c v2 x :=
    fun x hx => curBit_write hc hmw.1 hx
  have hw3 : (v2.write (slotBlk c i w) (.inode n)).work.freeInodes = v.work.freeInodes := by
    rw [write_work, s2.freeInodes, write_work]
  have hbr3 : (v2.write (slotBlk c i w) (.inode n)).branched = true := s2.branched
  have hk3 : (v2.write (slotBlk c i w) (.inode n)).blk (slotBlk c i w) = .inode n := by simp
  generalize v2.write (slotBlk c i w) (.inode n) = v3 at *
  have t4 := Tbl.inodes (i := i) hc hv3 hbr3 (v3.work.freeInodes - 1)
  generalize hv4d : v3.setWork { v3.work with freeInodes := v3.work.freeInodes - 1 } = v4 at *
  have hv4b : ∀ x, InMap c x → curBit c v4 x = curBit c v3 x := by
    intro x hx; rw [← hv4d]; unfold curBit
    exact imapBit_congr_entries (by rw [setWork_work]) x
  have hv4k : v4.blk = v3.blk := by rw [← hv4d]; rfl
  have hv4i : v4.work.freeInodes = v3.work.freeInodes - 1 := by rw [← hv4d, setWork_work]
  have t := ((t1.trans hc t2).trans hc t3).trans hc t4
  have hbits : ∀ w', curBit c v4 (slotBlk c i w') = decide (w' = w) := by
    intro w'
    have hx := slot_inMap hc hi w'
    rw [hv4b _ hx, hb3 _ hx, s2.bits _ hx]
    by_cases e : w' = w
    · subst e; simp
    · rw [if_neg (fun e2 => e (slot_inj hc hi hi e2).2), hb1 _ hx, hcur]; simp [e]
  have hblk : v4.blk (slotBlk c i w) = .inode n := by rw [hv4k]; exact hk3
  have hone4 : ¬ (curBit c v4 (slotBlk c i false) = true ∧ curBit c v4 (slotBlk c i true) = true) := by
    rw [hbits, hbits]; cases w <;> simp
  have hat : inodeAt c v4.blk (curBit c v4) i = some n := inodeAt_of hi hone4 (w := w) (by rw [hbits]; simp) hblk
  have hT0 : ∀ p, tree c v i p = 0 := fun p => ptr_none (inodeAt_none hl.symm) p
  have hT4 : ∀ p, tree c v4 i p = 0 := by
    intro p
    induction p with
    | ent e =>
      show ptr (inodeAt c v4.blk (curBit c v4)) v4.blk i (.ent e) = 0
      simp only [ptr, entryOf, hat]; exact hns.2.2.1 e
    | sub p k ih =>
      show (if tree c v4 i p = 0 then 0 else _) = 0
      rw [ih, if_pos rfl]
  have hpos : 0 < v.work.freeInodes := by
    rw [freeInodes_eq h]
    unfold Conf.inodeValid at hi; simp at hi
    exact countIn_pos.2 ⟨i, hi.1, hi.2, by simp [hn]⟩
  have hch : Ch c v v4 (· = i) := by
    refine t.wf hc hi h (fun p _ => by rw [hT0, hT4]) hone4 ?_ ?_ ?_
    · intro w' hw'
      rw [hbits] at hw'
      have : w' = w := by simpa using hw'
      subst this; exact ⟨_, hblk⟩
    · have l1 : liveIn c (curBit c v4) i = true := by
        unfold liveIn; rw [hbits, hbits]; cases w <;> simp
      rw [l1, ← hl, hv4i, hw3]; simp; omega
    · intro n' hn'
      rw [hat] at hn'; injection hn' with hn'; subst hn'
      refine ⟨by rw [hns.2.2.2.1]; exact hm, by rw [hns.1]; omega, fun p _ hp => absurd (hT0 p) hp, fun _ => ?_⟩
      rw [hns.2.1]
      symm
      have : countIn (fun b => decide (tree c v i (posOf c b) ≠ 0)) 0 c.dataBlocks = countIn (fun _ => false) 0 c.dataBlocks :=
        countIn_congr (fun b _ _ => by simp [hT0])
      rw [this]
      simp [countIn]
  refine ⟨_, v4, rfl, ?_⟩
  have hsp := t.space hc hi h.vol
  refine { ch := hch, file := ?_, mnt := ?_, ino := rfl, dirty := rfl, pData := rfl, node := ⟨hns.2.2.2.1, hns.2.2.2.2.1, hns.2.2.2.2.2, hns.1⟩, was := hn,
           valid := hi, free := hsp.1, almost := hsp.2, inodes := by rw [hv4i, hw3]; omega }
  · unfold files
    rw [fileOf_eq, hat]
    simp only [Option.map_some, Option.some.injEq, hns]
    unfold AFile.new
    simp
  · refine ⟨hi, ⟨w, rfl, (by rw [show (Cinode.init i).ino = i from rfl, hbits]; simp), hblk, ?_⟩, fun _ => rfl, ?_, SeekAll.uninit rfl⟩
    · show true = true ↔ cmtBit c v4 (slotBlk c i w) = false
      rw [t.step.cbits hc hmw, hcm]; simp
    · show isDirMode mode = decide (n.mode = modeDir)
      rw [hns.2.2.2.1]
      rcases hm with rfl | rfl <;> decide

theorem inodeCreate_spec (hc : c.Ok) (h : Wf c v) (hroot : c.posix = true → (files c v 2).isSome = true) {mode : Nat}
    (hm : mode = modeReg ∨ mode = modeDir) {pino : Nat} (hp : c.posix = true → c.inodeValid pino = true) (hpx : c.posix = true) :
    ((∀ j, c.inodeValid j = true → (files c v j).isSome = true) ∧ inodeCreate c 0 pino mode v = (.error .enfile, v)) ∨
    ∃ i ci v', inodeCreate c 0 pino mode v = (.ok ci, v') ∧ Created c v v' ci i mode pino ∧
      ∀ k, c.inodeValid k = true → k < i → (files c v k).isSome = true := by
  have hE : inodeCreate c 0 pino mode = (do let i ← inodeFindFree c; createAt c i pino mode) := by
    unfold inodeCreate createAt
    rw [if_neg (by simp [hp hpx])]
    rw [if_pos (by simp [hpx])]
  rw [hE]
  simp only [run_bind]
  rcases findFree_spec hc h hroot with ⟨g, e⟩ | ⟨i, e, hi, hn, g⟩
  · left; exact ⟨g, by rw [e]⟩
  · right
    obtain ⟨ci, v', e2, C⟩ := createAt_spec hc h hi hn pino hm
    exact ⟨i, ci, v', by rw [e]; exact e2, C, g⟩

/-- Creating a given inode (`RedVolFormat`). -/
theorem inodeCreateAt_spec (hc : c.Ok) (h : Wf c v) {mode : Nat} (hm : mode = modeReg ∨ mode = modeDir) {pino i : Nat} (hi : c.inodeValid i = true)
    (hp : c.posix = true → c.inodeValid pino = true ∨ pino = 0 ∧ i = 2) :
    ((files c v i).isSome = true ∧ inodeCreate c i pino mode v = (.error .eexist, v)) ∨
    (files c v i = none ∧ ∃ ci v', inodeCreate c i pino mode v = (.ok ci, v') ∧ Created c v v' ci i mode pino) := by
  have hi0 : i ≠ 0 := by unfold Conf.inodeValid at hi; simp at hi; omega
  have hE : inodeCreate c i pino mode = (do
      let j ← (do if ← inodeIsFree c i then pure i else fail .eexist : VM Nat)
      createAt c j pino mode) := by
    unfold inodeCreate createAt
    rw [if_neg (by
      simp only [Bool.and_eq_true, Bool.not_eq_true', Bool.or_eq_false_iff, decide_eq_false_iff_not, Bool.and_eq_false_iff, not_and]
      intro hpx
      rcases hp hpx with h1 | ⟨h1, h2⟩
      · intro h3; rw [h1] at h3; cases h3
      · subst h1 h2; simp)]
    rw [if_neg (by simp [hi0]), if_pos hi]
    funext v
    simp only [run_bind]
    rcases inodeIsFree c i v with ⟨r | b, s⟩
    · rfl
    · cases b <;> simp [run_bind]
  have hl := live_iff h i
  rw [hi, Bool.true_and] at hl
  rw [hE]
  simp only [run_bind, isFree_eq hc h.vol hi, ← hl]
  cases hn : files c v i with
  | some f => left; exact ⟨rfl, by simp⟩
  | none =>
    right; refine ⟨rfl, ?_⟩
    simp only [Option.isSome_none, Bool.not_false, if_true, run_pure]
    exact createAt_spec hc h hi hn pino hm

end RedFs
