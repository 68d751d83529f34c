import Verif.Lemmas.Step
set_option linter.unusedSimpArgs false
set_option linter.unusedVariables false
namespace RedFs
open M Bitmap Vol

/-- A concrete empty volume (no inode, everything free), used to show that the hypotheses
of the theorems can be met. -/
def blankMr (c : Conf) (s : Nat) : Metaroot := ⟨s, c.allocable, c.inodeCount, c.firstAlloc, fun _ => 0⟩

def blankMaster (c : Conf) : Master :=
  ⟨0, c.inodeCount, c.blockCount, c.nameMax, c.direct, c.indirect, c.blockSize, c.posix, c.timestamps, c.inodeBlocks⟩

def blankDisk (c : Conf) : Nat → Blk := fun b =>
  if b = 0 then .master (blankMaster c)
  else if b = 1 then .metaroot (blankMr c 1)
  else if b = 2 then .metaroot (blankMr c 0)
  else if b < c.tableStart then .imap (fun _ => 0)
  else .data (fun _ => 0)

def blankVol (c : Conf) : Vol where
  blk := blankDisk c
  base := blankDisk c
  dirty := fun _ => false
  stale := fun _ => .data (fun _ => 0xAA)
  mr := fun _ => blankMr c 1
  cur := true
  branched := false
  almostFree := 0
  useReserved := false
  mounted := true
  readOnly := false
  transMask := 0
  seq := 2
  nodeWrites := fun _ => 0
  hist := []

theorem bitGet_zero (i : Nat) : bitGet (fun _ => 0) i = false := by
  rw [bitGet_bit]; simp

theorem countIn_true (lo hi : Nat) : countIn (fun _ => true) lo hi = hi - lo := by
  unfold countIn; simp

theorem blank_bit (c : Conf) (s b : Nat) : imapBit c (blankDisk c) (blankMr c s) b = false := by
  unfold imapBit
  split
  · exact bitGet_zero _
  · split
    · rename_i bits h
      have : bits = fun _ => 0 := by
        unfold blankDisk at h
        split at h; · cases h
        split at h; · cases h
        split at h; · cases h
        split at h
        · cases h; rfl
        · cases h
      rw [this]; exact bitGet_zero _
    · rfl

theorem blank_node (c : Conf) (m : Metaroot) (hi : c.inline = false) {k : Nat} (hk : k < c.nodeCount) :
    blankDisk c (nodeBlk c m k) = .imap (fun _ => 0) := by
  have h1 := nodeBlk_ge c m k
  have h2 := nodeBlk_lt m hi hk
  unfold blankDisk
  rw [if_neg (by omega), if_neg (by omega), if_neg (by omega), if_pos h2]

theorem blank_inv {c : Conf} (hc : c.Ok) : VolInv c (blankVol c) := by
  have hf : (blankVol c).comm.freeBlocks = countIn (fun b => !cmtBit c (blankVol c) b) c.firstAlloc c.blockCount := by
    show c.allocable = _
    have : ∀ x, (!cmtBit c (blankVol c) x) = true := by
      intro x; show (!imapBit c (blankDisk c) (blankMr c 1) x) = true; rw [blank_bit]; rfl
    simp only [this, countIn_true]; rfl
  have hn : c.firstAlloc < c.blockCount → c.firstAlloc ≤ (blankVol c).comm.allocNext ∧ (blankVol c).comm.allocNext < c.blockCount :=
    fun h => ⟨Nat.le_refl _, h⟩
  refine { ok := ⟨?_, ?_, ?_⟩, space := SpaceOk.fresh rfl rfl hf hn, commFree := hf, commNext := hn, clean := fun _ _ _ => rfl,
           sel := fun _ => ?_, master := fun _ => ⟨blankMaster c, rfl, ?_⟩, low := fun _ _ => rfl, seq := by show 1 < 2; omega, idle := fun _ => rfl,
           dev := fun _ _ => rfl, epochs := by intro _ e he; cases he }
  · intro hi k hk; exact ⟨_, blank_node c _ hi hk⟩
  · intro hi k hk; exact ⟨_, blank_node c _ hi hk⟩
  · intro hi k hk; exact ⟨rfl, rfl⟩
  · show mrSelect c (.metaroot (blankMr c 1)) (.metaroot (blankMr c 0)) = some (false, blankMr c 1)
    simp [mrSelect, mrValid, blankMr]
  · simp [masterMatches, blankMaster]

/-- A small volume with the map inside the metaroot. -/
def demoConf : Conf := ⟨128, 4, 2, true, false, true, true, true, 12, 4, 60, false, false, true, 47⟩
/-- A small volume with external map nodes (128-byte blocks, 2000 blocks). -/
def demoConfX : Conf := ⟨128, 4, 2, true, true, true, true, true, 12, 4, 2000, true, true, false, 47⟩

theorem demo_ok : demoConf.Ok where
  bs_pow := ⟨7, by decide, by decide, rfl⟩
  ptrs := by decide
  inodes := by decide
  blocks_min := by decide
  blocks_max := by decide
  fits := by decide
  nodes := by decide

theorem demoX_ok : demoConfX.Ok where
  bs_pow := ⟨7, by decide, by decide, rfl⟩
  ptrs := by decide
  inodes := by decide
  blocks_min := by decide
  blocks_max := by decide
  fits := by decide
  nodes := by decide

end RedFs
