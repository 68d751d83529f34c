import Verif.Lemmas.Crc
/-
Property theorems about the checksum: C08, C09 and the detection part of C07.
-/
namespace RedFs.Props.Crc
open RedFs.Crc

/-- C08: the three builds agree on every buffer, every initial value and every buffer
alignment. -/
theorem C08_crc_builds_agree (init : Word) (buf : List Byte) (misalign : Nat) :
    crcSarwate init buf = crcBitwise init buf ∧ crcSlice8 misalign init buf = crcBitwise init buf := by
  have hs : byteStepSlice = byteStepBitwise := by funext c b; exact byteStep_slice c b
  have hw : byteStepSarwate = byteStepBitwise := by funext c b; exact byteStep_sarwate c b
  unfold crcSarwate crcSlice8 crcBitwise
  rw [hw, sliceLoop_eq, hs, ← List.foldl_append, List.take_append_drop]
  exact ⟨rfl, rfl⟩

/-- The standard check value of CRC-32 ("123456789"). -/
example : crcBitwise 0#32 [0x31#8,0x32#8,0x33#8,0x34#8,0x35#8,0x36#8,0x37#8,0x38#8,0x39#8] = 0xCBF43926#32
    ∧ crcSlice8 1 0#32 [0x31#8,0x32#8,0x33#8,0x34#8,0x35#8,0x36#8,0x37#8,0x38#8,0x39#8] = 0xCBF43926#32 := by
  decide +kernel

/-- C09: the CRC may be computed piecewise, at any split point, from any initial value, in
any of the builds. -/
theorem C09_crc_append (init : Word) (a b : List Byte) (m1 m2 m3 : Nat) :
    crcBitwise init (a ++ b) = crcBitwise (crcBitwise init a) b ∧
    crcSarwate init (a ++ b) = crcSarwate (crcSarwate init a) b ∧
    crcSlice8 m1 init (a ++ b) = crcSlice8 m3 (crcSlice8 m2 init a) b := by
  have h : crcBitwise init (a ++ b) = crcBitwise (crcBitwise init a) b := by
    unfold crcBitwise; rw [List.foldl_append, BitVec.not_not]
  refine ⟨h, ?_, ?_⟩
  · rw [(C08_crc_builds_agree _ _ 0).1, (C08_crc_builds_agree _ _ 0).1, (C08_crc_builds_agree _ _ 0).1]; exact h
  · rw [(C08_crc_builds_agree _ _ m1).2, (C08_crc_builds_agree _ _ m3).2, (C08_crc_builds_agree _ _ m2).2]; exact h

example : crcBitwise (crcBitwise 0#32 [0x31#8,0x32#8,0x33#8]) [0x34#8,0x35#8,0x36#8,0x37#8,0x38#8,0x39#8] = 0xCBF43926#32 := by
  decide +kernel

/-- C07 (checksum part): if two buffers differ only inside a window of at most 32
consecutive bits (bits of a byte taken least significant first, as the CRC does), then
their CRCs differ, whatever the buffers, the window position and the damage pattern. -/
theorem C07_burst_detected (init : Word) (m1 m2 : List Byte) (pre w1 w2 suf : List Bool)
    (h1 : bits m1 = pre ++ w1 ++ suf) (h2 : bits m2 = pre ++ w2 ++ suf)
    (hlen : w1.length = w2.length) (h32 : w1.length ≤ 32) (hne : w1 ≠ w2) :
    crcBitwise init m1 ≠ crcBitwise init m2 := by
  intro h
  unfold crcBitwise at h
  have h := congrArg (fun x => ~~~ x) h
  simp only [BitVec.not_not] at h
  rw [← foldl_bits, ← foldl_bits, h1, h2] at h
  simp only [List.foldl_append] at h
  generalize pre.foldl bit1 (~~~ init) = s at h
  have e : ∀ (w : List Bool), w.foldl bit1 s = 0#32 ^^^ w.foldl bit1 s := by intro w; simp
  have lin : ∀ (a b : Word), suf.foldl bit1 a = suf.foldl bit1 b → a = b := by
    intro a b hab
    have ha : a = b ^^^ (a ^^^ b) := by
      rw [BitVec.xor_comm a b, ← BitVec.xor_assoc]; simp
    rw [ha, foldl_bit1_lin] at hab
    have hz : bitSteps suf.length (a ^^^ b) = 0#32 := by
      have := congrArg (fun x => suf.foldl bit1 b ^^^ x) hab
      simpa [← BitVec.xor_assoc] using this
    rw [← bitSteps_zero suf.length] at hz
    have := bitSteps_inj _ _ _ hz
    have h3 := congrArg (fun x => b ^^^ x) this
    rw [← ha] at h3; simpa using h3
  have hw := lin _ _ h
  have hs : s = 0#32 ^^^ s := by simp
  rw [hs, foldl_bit1_lin, foldl_bit1_lin, hlen] at hw
  have hw' : w1.foldl bit1 0#32 = w2.foldl bit1 0#32 := by
    have := congrArg (fun x => x ^^^ bitSteps w2.length s) hw
    simpa [BitVec.xor_assoc] using this
  rw [foldl_bit1_pack _ h32, foldl_bit1_pack _ (by omega), hlen] at hw'
  exact hne (packBits_inj _ _ hlen h32 (bitSteps_inj _ _ _ hw'))

/-- Non-vacuity: a window that crosses byte boundaries. -/
example : bits [0x31#8, 0xFF#8, 0x80#8] = [true,false,false] ++ [false,true,true,false,false,true,true,true,true,true,true,true,true,false] ++ [false,false,false,false,false,false,true]
   ∧ bits [0x39#8, 0xFF#8, 0x81#8] = [true,false,false] ++ [true,true,true,false,false,true,true,true,true,true,true,true,true,true] ++ [false,false,false,false,false,false,true] := by decide

end RedFs.Props.Crc
