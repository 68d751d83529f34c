import Mathlib.Data.Nat.Prime.Basic
import Verif.Model.Geometry
import Verif.Model.Inode
import Verif.Spec.Layout
import Verif.Lemmas.Blank
/-!
C36: the volume layout is sound.
-/
set_option linter.unusedVariables false
set_option linter.unusedSimpArgs false
set_option linter.unusedTactic false
set_option linter.unreachableTactic false
namespace RedFs.Props.Geometry
open RedFs

/-! ### the layout -/

theorem tableStart_le (c : Conf) : 3 ≤ c.tableStart := by
  unfold Conf.tableStart Conf.imapStart; split <;> omega

theorem sel_le (b : Bool) : sel b ≤ 1 := by cases b <;> decide

/-- Every role of an accepted configuration lies inside the volume. -/
theorem C36_role_inside (c : Conf) (hc : c.Ok) (r : Role) (h : r.Valid c) :
    r.block c < c.blockCount := by
  have hf := hc.fits
  have hi := hc.inodes
  have ht := tableStart_le c
  unfold Conf.firstAlloc at hf
  cases r with
  | master => simp only [Role.block]; omega
  | metaroot b => have := sel_le b; simp only [Role.block]; omega
  | imapNode k b =>
    have := sel_le b
    obtain ⟨h1, h2⟩ := h
    have : c.tableStart = 3 + c.nodeCount * 2 := by simp [Conf.tableStart, h1, Conf.imapStart]
    simp only [Role.block]; omega
  | inode ino b =>
    have := sel_le b
    obtain ⟨h1, h2⟩ := h
    simp only [Role.block]; omega
  | allocable k =>
    simp only [Role.Valid, Conf.allocable, Conf.firstAlloc] at h
    simp only [Role.block, Conf.firstAlloc]; omega

/-- No two roles share a block. -/
theorem C36_roles_disjoint (c : Conf) (hc : c.Ok) (r s : Role) (hr : r.Valid c) (hs : s.Valid c)
    (h : r.block c = s.block c) : r = s := by
  have hf := hc.fits
  have hi := hc.inodes
  have ht := tableStart_le c
  have hn : c.inline = false → c.tableStart = 3 + c.nodeCount * 2 := by
    intro h; simp [Conf.tableStart, h, Conf.imapStart]
  have hfa : c.firstAlloc = c.tableStart + c.inodeCount * 2 := rfl
  cases r <;> cases s <;> simp only [Role.block, Role.Valid] at h hr hs
  case master.master => rfl
  case metaroot.metaroot a b => cases a <;> cases b <;> simp [sel] at h ⊢
  case imapNode.imapNode k a k' b =>
    have h1 := sel_le a; have h2 := sel_le b
    have : k = k' := by omega
    subst this
    have : sel a = sel b := by omega
    cases a <;> cases b <;> simp [sel] at this ⊢
  case inode.inode k a k' b =>
    have h1 := sel_le a; have h2 := sel_le b
    have : k = k' := by omega
    subst this
    have : sel a = sel b := by omega
    cases a <;> cases b <;> simp [sel] at this ⊢
  case allocable.allocable k k' => have : k = k' := by omega
                                   rw [this]
  all_goals exfalso
  all_goals first
    | omega
    | (rename_i a; have := sel_le a; omega)
    | (rename_i a _; have := sel_le a; omega)
    | (rename_i k a b; have h1 := sel_le a; have h2 := sel_le b; have := hn hr.1; omega)
    | (rename_i a k b; have h1 := sel_le a; have h2 := sel_le b; have := hn hs.1; omega)
    | (rename_i a k b; have h1 := sel_le a; have h2 := sel_le b; omega)
    | (rename_i k a b; have h1 := sel_le a; have h2 := sel_le b; omega)
    | (rename_i k a k' b; have h1 := sel_le a; have h2 := sel_le b; have := hn hr.1; omega)
    | (rename_i k a k' b; have h1 := sel_le a; have h2 := sel_le b; have := hn hs.1; omega)
    | (rename_i k a k'; have h1 := sel_le a; have := hn hr.1; omega)
    | (rename_i k' k a; have h1 := sel_le a; have := hn hs.1; omega)
    | (rename_i k a k'; have h1 := sel_le a; omega)
    | (rename_i k' k a; have h1 := sel_le a; omega)

/-- Every block of the volume has a role: the roles cover the volume. -/
theorem C36_roles_cover (c : Conf) (hc : c.Ok) (b : Nat) (hb : b < c.blockCount) :
    ∃ r : Role, r.Valid c ∧ r.block c = b := by
  have hf := hc.fits
  have hfa : c.firstAlloc = c.tableStart + c.inodeCount * 2 := rfl
  have hal : c.allocable = c.blockCount - c.firstAlloc := rfl
  have pick : ∀ x : Nat, x % 2 = sel (decide (x % 2 = 1)) := by
    intro x
    rcases Nat.mod_two_eq_zero_or_one x with h | h <;> simp [h, sel]
  by_cases h0 : b = 0
  · exact ⟨.master, trivial, by simp [Role.block, h0]⟩
  by_cases h3 : b < 3
  · refine ⟨.metaroot (decide ((b - 1) % 2 = 1)), trivial, ?_⟩
    have := pick (b - 1)
    simp only [Role.block]; omega
  by_cases ht : b < c.tableStart
  · have hin : c.inline = false := by
      cases h : c.inline with
      | false => rfl
      | true => simp [Conf.tableStart, h] at ht; omega
    have hts : c.tableStart = 3 + c.nodeCount * 2 := by simp [Conf.tableStart, hin, Conf.imapStart]
    refine ⟨.imapNode ((b - 3) / 2) (decide ((b - 3) % 2 = 1)), ⟨hin, by omega⟩, ?_⟩
    have := pick (b - 3)
    simp only [Role.block]; omega
  by_cases hfi : b < c.firstAlloc
  · refine ⟨.inode ((b - c.tableStart) / 2 + 2) (decide ((b - c.tableStart) % 2 = 1)), ⟨by omega, by omega⟩, ?_⟩
    have := pick (b - c.tableStart)
    simp only [Role.block]; omega
  · exact ⟨.allocable (b - c.firstAlloc), by simp only [Role.Valid]; omega, by simp only [Role.block]; omega⟩

/-- The blocks the driver computes for an imap node and for an inode copy are the blocks
of those roles; hence each of them has its own two blocks. -/
theorem C36_driver_blocks (c : Conf) (m : Metaroot) (k ino : Nat) (w : Bool) :
    nodeBlk c m k = Role.block c (.imapNode k (Bitmap.bitGet m.entries k)) ∧
    slotBlk c ino w = Role.block c (.inode ino w) := by
  constructor
  · simp only [nodeBlk, Role.block, sel, Conf.imapStart]; omega
  · simp only [slotBlk, Role.block, sel]; omega

/-- The bitmaps have a bit for every inode and allocable block: with the map inside the
metaroot, the metaroot has room for it; with external nodes, the node number computed for
the block exists, and the metaroot has a bit for every node. -/
theorem C36_bitmaps_large_enough (c : Conf) (hc : c.Ok) (b : Nat) (h1 : c.tableStart ≤ b)
    (h2 : b < c.blockCount) :
    (c.inline = true → b - c.tableStart < c.mrEntries) ∧
    (c.inline = false → (b - c.tableStart) / c.imapEntries < c.nodeCount ∧
      (b - c.tableStart) % c.imapEntries < c.imapEntries ∧ c.nodeCount ≤ c.mrEntries) := by
  have he : 0 < c.imapEntries := by
    obtain ⟨k, h7, _, hk⟩ := hc.bs_pow
    have : 2 ^ 7 ≤ c.blockSize := hk ▸ Nat.pow_le_pow_right (by decide) h7
    unfold Conf.imapEntries; omega
  constructor
  · intro hi
    have : c.blockCount - 3 ≤ c.mrEntries := by simpa [Conf.inline] using hi
    have hts : c.tableStart = 3 := by simp [Conf.tableStart, hi]
    omega
  · intro hi
    have hts : c.tableStart = 3 + c.nodeCount * 2 := by simp [Conf.tableStart, hi, Conf.imapStart]
    refine ⟨?_, Nat.mod_lt _ he, hc.nodes hi⟩
    rw [Nat.div_lt_iff_lt_mul he]
    have hn : c.blockCount - 3 ≤ c.nodeCount * (c.imapEntries + 2) := by
      have hd : ∀ x y : Nat, 0 < y → x ≤ (x + (y - 1)) / y * y := by
        intro x y hy
        have := Nat.div_add_mod (x + (y - 1)) y
        have h' := Nat.mod_lt (x + (y - 1)) hy
        rw [Nat.mul_comm] at this
        omega
      exact hd _ _ (by omega)
    rw [Nat.mul_add] at hn
    omega

example : ∃ b, demoConfX.tableStart ≤ b ∧ b < demoConfX.blockCount ∧ demoConfX.inline = false :=
  ⟨1500, by decide, by decide, by decide⟩
example : (Role.inode 5 true).Valid demoConf ∧ (Role.allocable 3).Valid demoConf ∧
    (Role.imapNode 1 false).Valid demoConfX := by
  refine ⟨⟨by decide, by decide⟩, ?_, ⟨by decide, by decide⟩⟩
  show 3 < demoConf.allocable
  decide

/-! ### what `RedVolInitGeometry` accepts -/

theorem pow2_dvd {x n : Nat} (h : x ∣ 2 ^ n) : ∃ m, m ≤ n ∧ x = 2 ^ m :=
  by
  obtain ⟨m, h1, h2⟩ := (Nat.dvd_prime_pow Nat.prime_two).1 h
  exact ⟨m, h1, h2⟩

theorem shiftLoop_spec (j n : Nat) : ∀ fuel s, s ≤ n → n - s ≤ fuel →
    shiftLoop (2 ^ j) (2 ^ (j + n)) fuel s = n := by
  intro fuel
  induction fuel with
  | zero => intro s h1 h2; simp [shiftLoop]; omega
  | succ f ih =>
    intro s h1 h2
    unfold shiftLoop
    rw [Nat.shiftLeft_eq, ← Nat.pow_add]
    split
    · next h =>
      have : j + s < j + n := (Nat.pow_lt_pow_iff_right (by decide)).1 h
      exact ih _ (by omega) (by omega)
    · next h =>
      have : ¬ j + s < j + n := fun h' => h (Nat.pow_lt_pow_right (by decide) h')
      omega

/-- For every geometry the driver accepts, if the inode count and the block count are small
enough for the 32-bit arithmetic, and the imap nodes have bits in the metaroot, then the
accepted values are the unbounded ones, the layout is that of the other theorems of this
file, and the volume lies inside the partition of the device. -/
theorem C36_accepted_geometry (c : Conf) (i e : Bool) (d : Dev) (g : Geom)
    (hbs : ∃ k, 7 ≤ k ∧ k ≤ 16 ∧ c.blockSize = 2 ^ k)
    (hptr : c.direct + c.indirect ≤ c.inodeEntries) (hino : 1 ≤ c.inodeCount)
    (hacc : initGeometry c i e d = .ok g)
    (hnowrap : c.inodeCount < 2139095040) (hblk : g.blockCount < 4294443008)
    (hnodes : g.nodeCount ≤ c.mrEntries) :
    (c.withGeom g).Ok ∧
    g.tableStart = (c.withGeom g).tableStart ∧ g.firstAlloc = (c.withGeom g).firstAlloc ∧
    g.allocable = (c.withGeom g).allocable ∧ g.inline = (c.withGeom g).inline ∧
    (g.inline = false → g.nodeCount = (c.withGeom g).nodeCount) ∧
    d.sectorSize * 2 ^ g.shift = c.blockSize ∧
    g.blockCount * 2 ^ g.shift ≤ d.sectorCount ∧
    d.sectorOffset + d.sectorCount ≤ 18446744073709551615 := by
  obtain ⟨k, hk7, hk16, hk⟩ := hbs
  have hb1 : 2 ^ 7 ≤ c.blockSize := hk ▸ Nat.pow_le_pow_right (by decide) hk7
  have hb2 : c.blockSize ≤ 2 ^ 16 := hk ▸ Nat.pow_le_pow_right (by decide) hk16
  have him : c.imapEntries ≤ 524160 ∧ 896 ≤ c.imapEntries := by unfold Conf.imapEntries; omega
  unfold initGeometry at hacc
  split at hacc
  · cases hacc
  next h1 =>
  have h1a : 128 ≤ d.sectorSize := by omega
  have h1b : c.blockSize % d.sectorSize = 0 := by
    by_contra h; exact h1 (Or.inr (Or.inl h))
  have h1c : d.sectorCount ≤ 18446744073709551615 - d.sectorOffset := by omega
  have hoff : d.sectorOffset + d.sectorCount ≤ 18446744073709551615 ∨ d.sectorCount = 0 := by omega
  -- the sector size is a power of two
  obtain ⟨j, hj, hjs⟩ := pow2_dvd (hk ▸ Nat.dvd_of_mod_eq_zero h1b)
  have hsh : shiftLoop d.sectorSize c.blockSize 16 0 = k - j := by
    rw [hjs, hk]
    have : k = j + (k - j) := by omega
    conv_lhs => rw [this]
    have := shiftLoop_spec j (k - j) 16 0 (by omega) (by omega)
    simpa using this
  simp only [hsh] at hacc
  generalize hbc : u32 (d.sectorCount >>> (k - j)) = bc at hacc
  have hbclt : bc < 4294967296 := by rw [← hbc]; exact Nat.mod_lt _ (by decide)
  split at hacc
  · cases hacc
  next h5 =>
  have hs3 : sub32 bc 3 = bc - 3 := by
    unfold sub32 u32
    have : bc + (4294967296 - 3) = (bc - 3) + 4294967296 := by omega
    rw [this, Nat.add_mod_right, Nat.mod_eq_of_lt (by omega)]
  rw [hs3] at hacc
  obtain ⟨hfit, hg⟩ :
      ¬ u32 ((if bc - 3 ≤ c.mrEntries then 3 else u32 (3 + u32 (u32 (bc - 3 + u32 (c.imapEntries + 2 - 1)) /
        (c.imapEntries + 2) * 2))) + u32 (c.inodeCount * 2)) > bc ∧
      g = Geom.mk (k - j) bc (decide (bc - 3 ≤ c.mrEntries))
        (if bc - 3 ≤ c.mrEntries then 0 else u32 (bc - 3 + u32 (c.imapEntries + 2 - 1)) / (c.imapEntries + 2))
        (if bc - 3 ≤ c.mrEntries then 3 else u32 (3 + u32 (u32 (bc - 3 + u32 (c.imapEntries + 2 - 1)) /
        (c.imapEntries + 2) * 2)))
        (u32 ((if bc - 3 ≤ c.mrEntries then 3 else u32 (3 + u32 (u32 (bc - 3 + u32 (c.imapEntries + 2 - 1)) /
        (c.imapEntries + 2) * 2))) + u32 (c.inodeCount * 2)))
        (sub32 bc (u32 ((if bc - 3 ≤ c.mrEntries then 3 else u32 (3 + u32 (u32 (bc - 3 + u32 (c.imapEntries + 2 - 1)) /
        (c.imapEntries + 2) * 2))) + u32 (c.inodeCount * 2)))) := by
    by_cases hinl : bc - 3 ≤ c.mrEntries
    · simp only [hinl, decide_true, if_true, true_and, false_and, Bool.true_eq_false, if_false] at hacc ⊢
      split at hacc
      · cases hacc
      split at hacc
      · cases hacc
      next hfit => injection hacc with hg; exact ⟨hfit, hg.symm⟩
    · simp only [hinl, decide_false, if_false, true_and, false_and, Bool.false_eq_true] at hacc ⊢
      split at hacc
      · cases hacc
      split at hacc
      · cases hacc
      next hfit => injection hacc with hg; exact ⟨hfit, hg.symm⟩
  subst hg
  simp only at hblk hnodes
  have hu : ∀ x, x < 4294967296 → u32 x = x := fun x h => Nat.mod_eq_of_lt h
  have hnode : u32 (bc - 3 + u32 (c.imapEntries + 2 - 1)) = bc - 3 + (c.imapEntries + 2 - 1) := by
    rw [hu (c.imapEntries + 2 - 1) (by omega), hu _ (by omega)]
  have hndiv : (bc - 3 + (c.imapEntries + 2 - 1)) / (c.imapEntries + 2) ≤ 4782816 := by
    rw [Nat.div_le_iff_le_mul_add_pred (by omega)]
    have : 898 * 4782816 ≤ (c.imapEntries + 2) * 4782816 := Nat.mul_le_mul_right _ (by omega)
    omega
  rw [hnode] at hfit hnodes ⊢
  generalize hN : (bc - 3 + (c.imapEntries + 2 - 1)) / (c.imapEntries + 2) = N at hfit hnodes hndiv ⊢
  have hi2 : u32 (c.inodeCount * 2) = c.inodeCount * 2 := hu _ (by omega)
  rw [hi2] at hfit ⊢
  have hsubs : ∀ x, x ≤ bc → sub32 bc x = bc - x := by
    intro x hx
    unfold sub32 u32
    by_cases h0 : x = 0
    · subst h0
      show (bc + 4294967296) % 4294967296 = bc - 0
      rw [Nat.add_mod_right, Nat.mod_eq_of_lt hbclt, Nat.sub_zero]
    · have : bc + (4294967296 - x) = (bc - x) + 4294967296 := by omega
      rw [this, Nat.add_mod_right, Nat.mod_eq_of_lt (by omega)]
  have hprod : d.sectorSize * 2 ^ (k - j) = c.blockSize := by
    rw [hjs, hk, ← Nat.pow_add, Nat.add_sub_cancel' hj]
  have hcov : bc * 2 ^ (k - j) ≤ d.sectorCount := by
    rw [← hbc]
    have : u32 (d.sectorCount >>> (k - j)) ≤ d.sectorCount / 2 ^ (k - j) := by
      rw [← Nat.shiftRight_eq_div_pow]; exact Nat.mod_le _ _
    exact (Nat.mul_le_mul_right _ this).trans (Nat.div_mul_le_self _ _)
  have hsc : d.sectorOffset + d.sectorCount ≤ 18446744073709551615 := by
    rcases hoff with h | h
    · exact h
    · rw [h] at hcov
      have : 0 < 2 ^ (k - j) := Nat.pow_pos (by decide)
      have := Nat.eq_zero_of_le_zero hcov
      rcases Nat.mul_eq_zero.1 this with h | h <;> omega
  by_cases hinl : bc - 3 ≤ c.mrEntries
  · simp only [hinl, decide_true, if_true] at hfit hnodes ⊢
    rw [hu (3 + c.inodeCount * 2) (by omega)] at hfit ⊢
    rw [hsubs _ (by omega)]
    have hci : (c.withGeom ⟨k - j, bc, true, 0, 3, 3 + c.inodeCount * 2, bc - (3 + c.inodeCount * 2)⟩).inline = true := by
      unfold Conf.inline; exact decide_eq_true hinl
    have hct : (c.withGeom ⟨k - j, bc, true, 0, 3, 3 + c.inodeCount * 2, bc - (3 + c.inodeCount * 2)⟩).tableStart = 3 := by
      simp [Conf.tableStart, hci]
    have hcf : (c.withGeom ⟨k - j, bc, true, 0, 3, 3 + c.inodeCount * 2, bc - (3 + c.inodeCount * 2)⟩).firstAlloc = 3 + c.inodeCount * 2 := by
      simp only [Conf.firstAlloc, hct]; rfl
    refine ⟨⟨⟨k, hk7, hk16, hk⟩, hptr, hino, by show 5 ≤ bc; omega, hbclt, ?_, ?_⟩, hct.symm, hcf.symm, ?_, hci.symm, ?_, hprod, hcov, hsc⟩
    · rw [hcf]; show _ ≤ bc; omega
    · rw [hci]; intro h; cases h
    · unfold Conf.allocable; rw [hcf]; rfl
    · intro h; cases h
  · simp only [hinl, decide_false, Bool.false_eq_true, if_false] at hfit hnodes ⊢
    rw [hu (N * 2) (by omega), hu (3 + N * 2) (by omega)] at hfit ⊢
    rw [hu (3 + N * 2 + c.inodeCount * 2) (by omega)] at hfit ⊢
    rw [hsubs _ (by omega)]
    generalize hG : Geom.mk (k - j) bc false N (3 + N * 2) (3 + N * 2 + c.inodeCount * 2)
      (bc - (3 + N * 2 + c.inodeCount * 2)) = G
    have hGb : (c.withGeom G).blockCount = bc := by rw [← hG]; rfl
    have hci : (c.withGeom G).inline = false := by
      simp only [Conf.inline, hGb]
      have : (c.withGeom G).mrEntries = c.mrEntries := rfl
      rw [this]; simpa using hinl
    have hcn : (c.withGeom G).nodeCount = N := by
      unfold Conf.nodeCount; rw [hGb]; exact hN
    have hct : (c.withGeom G).tableStart = 3 + N * 2 := by
      simp [Conf.tableStart, hci, hcn, Conf.imapStart]
    have hcf : (c.withGeom G).firstAlloc = 3 + N * 2 + c.inodeCount * 2 := by
      simp only [Conf.firstAlloc, hct]; rfl
    refine ⟨⟨⟨k, hk7, hk16, hk⟩, hptr, hino, by rw [hGb]; omega, by rw [hGb]; exact hbclt, ?_, ?_⟩, ?_, ?_, ?_, ?_, ?_, ?_, ?_, hsc⟩
    · rw [hcf, hGb]; omega
    · intro _; rw [hcn]; exact hnodes
    · first | rw [hct] | rw [hct, ← hG]
    · first | rw [hcf] | rw [hcf, ← hG]
    · unfold Conf.allocable; first | rw [hcf, hGb] | rw [hcf, hGb, ← hG]
    · first | rw [hci] | rw [hci, ← hG]
    · intro _; first | rw [hcn] | rw [hcn, ← hG]
    · exact hprod
    · exact hcov

/-- The theorem applies to a real geometry: 8000 sectors of 512 bytes with 4 KB blocks. -/
example : ∃ g, initGeometry { demoConf with blockSize := 4096 } true true ⟨512, 8000, 2048⟩ = .ok g ∧
    g.blockCount = 1000 ∧ g.nodeCount ≤ ({ demoConf with blockSize := 4096 } : Conf).mrEntries := by
  refine ⟨_, rfl, ?_, ?_⟩ <;> decide

/-- The hypotheses on the inode count is needed: with `ulInodeCount = 2147483650` the
multiplication by two wraps and the driver accepts a volume of 100 blocks for more than two
milliard inodes, so that inode 60 is outside the volume (DESIGN.md, finding 8). -/
theorem C36_inode_count_wraps :
    ∃ g, initGeometry { demoConf with inodeCount := 2147483650 } true true ⟨128, 100, 0⟩ = .ok g ∧
      g.blockCount ≤ g.tableStart + 2 * (60 - 2) ∧ 60 < 2 + 2147483650 :=
  ⟨⟨0, 100, true, 0, 3, 7, 93⟩,
    by simp [initGeometry, demoConf, shiftLoop, u32, sub32, Conf.mrEntries, Conf.imapEntries], by simp, by simp⟩

/-- The hypothesis on the number of imap nodes is needed: with 128-byte blocks and a volume
of two million blocks the driver accepts 2228 imap nodes, whose branch bits would need more
bits than the 768 the metaroot has (DESIGN.md, finding 7). -/
theorem C36_imap_nodes_exceed_metaroot :
    ∃ g, initGeometry demoConf true true ⟨128, 2000000, 0⟩ = .ok g ∧
      g.inline = false ∧ demoConf.mrEntries < g.nodeCount :=
  ⟨⟨0, 2000000, false, 2228, 4459, 4467, 1995533⟩,
    by simp [initGeometry, demoConf, shiftLoop, u32, sub32, Conf.mrEntries, Conf.imapEntries], rfl, by decide⟩

end RedFs.Props.Geometry
