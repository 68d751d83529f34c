import Verif.Lemmas.WordsTrunc
import Verif.Lemmas.Demo
set_option linter.unusedSimpArgs false
set_option linter.unusedVariables false
/-!
C65: changing the size of a file with block numbers in 32 bits and entry numbers in 16 bits.

`Words.dataTruncate` (`Model/WordsTrunc.lean`) is RedInodeDataTruncate with the functions below it;
its first argument says how many rounds each of the loops of `Shrink` may take before it is declared
to hang.  `RedFs.dataTruncate` computes with unbounded numbers.
-/
namespace RedFs
open M Words

variable {c : Conf}

/-- A cached inode whose coordinates, once set, are those of the block it says: so is every inode
when it is mounted, and it stays so. -/
def Words.Sound (c : Conf) (ci : Cinode) : Prop :=
  ci.inited = true → ∃ t : U32, t.toNat = ci.logical ∧ t.toNat < c.dataBlocks ∧ ci.inodeEntry = (Words.seekCoord c t).inodeEntry.toNat ∧
    ci.dindirEntry = Words.entryOf (Words.seekCoord c t).dindirEntry ∧ ci.indirEntry = Words.entryOf (Words.seekCoord c t).indirEntry

theorem sound_iff (ci : Cinode) : Words.Sound c ci ↔ Coherent c ci :=
  ⟨fun h hi => by obtain ⟨t, a, b, d, e, f⟩ := h hi; exact ⟨t, b, a.symm, d, e, f⟩,
   fun h hi => by obtain ⟨t, h⟩ := h hi; exact ⟨t, h.log.symm, h.lt, h.ino, h.dind, h.ind⟩⟩

/-- Changing the size computes, in the words of the code, what unbounded numbers give - result, file,
allocation state, every block - whatever the disk holds, and no loop of it takes more rounds than a
file can have blocks. -/
theorem C65_truncate (hc : c.Ok) (s : DS) (hs : s.ci.node.size ≤ c.sizeMax) (hci : Words.Sound c s.ci) (size : U64) (fuel : Nat)
    (hf : c.dataBlocks ≤ fuel) : Words.dataTruncate c fuel size s = RedFs.dataTruncate c size.toNat s := by
  have hm := sizeMax_lt hc
  have hsz : (BitVec.ofNat 64 s.ci.node.size).toNat = s.ci.node.size := ofNat64 (by omega)
  have hco : Coherent c s.ci := (sound_iff _).1 hci
  apply SimAt.eq
  unfold Words.dataTruncate RedFs.dataTruncate
  refine SimAt.bind (simGet s) fun a b s' hab e' => ?_
  obtain ⟨rfl, rfl⟩ := hab
  cases e'
  split
  · exact SimAt.fail
  by_cases hz : c.sizeMax < size.toNat
  · rw [if_pos hz, if_pos ((lt_toNat _ _).2 (by rw [sizeMax_toNat hc]; exact hz))]; exact SimAt.fail
  rw [if_neg hz, if_neg (fun x => hz (by rw [lt_toNat, sizeMax_toNat hc] at x; exact x))]
  refine SimAt.bind (R := fun (a b : Unit) => a = b) ?_ fun _ _ s1 _ e1 => ?_
  · refine SimAt.onlyIf (by rw [lt_toNat, hsz]) (fun _ => ?_) fun _ => rfl
    unfold SimAt
    rw [expandPrepare_eq hc a hs]
    exact SimAt.refl _ _
  refine SimAt.bind (R := fun (a b : Unit) => a = b) ?_ fun _ _ s2 _ e2 => SimAt.refl _ _
  have hco1 : Coherent c s1.ci ∨ ¬ size.toNat < a.ci.node.size := by
    by_cases h : a.ci.node.size < size.toNat
    · right; omega
    · left
      unfold onlyIf at e1
      rw [if_neg h] at e1
      cases e1
      exact hco
  refine SimAt.onlyIf (by rw [lt_toNat, hsz]) (fun h => ?_) fun _ => rfl
  have h : size.toNat < a.ci.node.size := by rw [lt_toNat, hsz] at h; exact h
  rcases hco1 with h1 | h1
  · exact shrink_sim hc (by omega) hf s1 h1
  · exact (h1 h).elim

/-- An inode is sound right after it is mounted. -/
theorem C65_fresh (ci : Cinode) (h : ci.inited = false) : Words.Sound c ci := fun hi => by rw [h] at hi; cases hi

/-- Reading a block, which is what lookups and the deletion of directory entries do before they truncate, keeps it so. -/
theorem C65_seek_keeps (hc : c.Ok) (b : Nat) (s s' : DS) (r : Bool) (h : Words.Sound c s.ci) (e : seekAndRead c b s = (.ok r, s')) :
    Words.Sound c s'.ci := by
  rw [sound_iff] at h ⊢
  have : KeepCoh c (seekAndRead c b) := by
    unfold seekAndRead
    refine (seekData_coh hc b).bind fun r => KeepC.kcoh ?_
    kcoord
  exact this s r s' h e

/-! ### The hypotheses can be met -/

/-- The largest blocks: a file can have 2^32 - 1 of them. -/
def confBig : Conf := ⟨65536, 4, 32, true, true, true, true, true, 12, 10000, 65536, false, false, true, 47⟩
theorem confBig_ok : confBig.Ok where
  bs_pow := ⟨16, by decide, by decide, rfl⟩
  ptrs := by decide
  inodes := by decide
  blocks_min := by decide
  blocks_max := by decide
  fits := by decide
  nodes := by decide

example (ci : Cinode) (v : Vol) (h : ci.inited = false) (hz : ci.node.size = confBig.sizeMax) :
    Words.dataTruncate confBig (2 ^ 32) 0 ⟨ci, v⟩ = RedFs.dataTruncate confBig 0 ⟨ci, v⟩ :=
  C65_truncate confBig_ok ⟨ci, v⟩ (Nat.le_of_eq hz) (C65_fresh ci h) 0 (2 ^ 32) (Nat.le_trans (dataBlocks_le confBig_ok) (by decide))

/-- There the sum `ulBlock += INDIR_ENTRIES - uIndirEntry` of `TruncDindir` does wrap, in the last round of its loop,
where the result is not used any more. -/
example : confBig.dataBlocks = 4294967295 ∧ (truncNextIndir confBig 0xFFFFFFFE#32 (Words.seekCoord confBig 0xFFFFFFFE#32).indirEntry).toNat < 0xFFFFFFFE := by
  decide +kernel

end RedFs
