import Verif.Lemmas.WordsRun
import Verif.Lemmas.Demo
set_option linter.unusedSimpArgs false
set_option linter.unusedVariables false
/-!
C61, continued: the loops over whole blocks count in 32 bits.  `Words.readAligned` and `Words.writeAligned`
(`Model/WordsRun.lean`) are ReadAligned and WriteAligned with the loops below them.
-/
namespace RedFs
open M Words

variable {c : Conf}

/-- Reading a run of whole blocks inside the largest file: the 32-bit loops read what unbounded numbers read. -/
theorem C61_read_blocks (hc : c.Ok) (start count : U32) (h : start.toNat + count.toNat ≤ c.dataBlocks) (s : DS) :
    Words.readAligned c start count count.toNat 0 s = RedFs.readAligned c start.toNat count.toNat count.toNat 0 s := by
  have hD := dataBlocks_le hc
  have := readAligned_sim (c := c) (start := start) (count := count) (by omega) count.toNat 0 s
  rw [zero32] at this
  exact SimAt.eq this

/-- Writing such a run, of less than 4 gigabytes in all: the same blocks are written with the same bytes, and the same
number of them. -/
theorem C61_write_blocks (hc : c.Ok) (start count : U32) (f : Nat → Byte) (h : start.toNat + count.toNat ≤ c.dataBlocks)
    (hz : count.toNat * c.blockSize < 2 ^ 32) (s : DS) :
    RedFs.writeAligned c start.toNat count.toNat f s =
      match Words.writeAligned c start count f s with
      | (.ok n, s') => (.ok n.toNat, s')
      | (.error e, s') => (.error e, s') := by
  have hD := dataBlocks_le hc
  have sim : SimAt (fun a b => a.toNat = b) (Words.writeAligned c start count f) (RedFs.writeAligned c start.toNat count.toNat f) s := by
    unfold Words.writeAligned RedFs.writeAligned
    have := writeLoop_sim hc (start := start) (count := count) (by omega) hz f count.toNat 0 0 s
    rw [zero32] at this
    refine SimAt.bind this fun x y s1 hxy _ => ?_
    obtain ⟨i, fl⟩ := x
    obtain ⟨i', fl'⟩ := y
    obtain ⟨rfl, rfl⟩ := hxy
    dsimp only
    by_cases h0 : fl = true ∧ i.toNat = 0
    · rw [if_pos h0, if_pos ⟨h0.1, by rw [eq_toNat, zero32]; exact h0.2⟩]; exact SimAt.fail
    · rw [if_neg h0, if_neg (fun hh => h0 ⟨hh.1, by have := hh.2; rw [eq_toNat, zero32] at this; exact this⟩)]; exact SimAt.pure rfl
  unfold SimAt at sim
  rcases h1 : Words.writeAligned c start count f s with ⟨r, s1⟩
  rcases h2 : RedFs.writeAligned c start.toNat count.toNat f s with ⟨r', s2⟩
  rw [h1, h2] at sim
  cases r <;> cases r' <;> simp_all

/-- The last blocks of the largest file. -/
example (s : DS) (f : Nat → Byte) : demoConf.dataBlocks ≤ 4294967295 ∧
    Words.readAligned demoConf (BitVec.ofNat 32 (demoConf.dataBlocks - 3)) 3 3 0 s =
      RedFs.readAligned demoConf (BitVec.ofNat 32 (demoConf.dataBlocks - 3)).toNat 3 3 0 s :=
  ⟨dataBlocks_le demo_ok, C61_read_blocks demo_ok (BitVec.ofNat 32 (demoConf.dataBlocks - 3)) 3 (by decide) s⟩
example : (BitVec.ofNat 32 (demoConf.dataBlocks - 3) : U32).toNat + (3 : U32).toNat ≤ demoConf.dataBlocks ∧
    (3 : U32).toNat * demoConf.blockSize < 2 ^ 32 := by decide

end RedFs
