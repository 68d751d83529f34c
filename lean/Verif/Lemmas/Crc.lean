import Verif.Model.Crc
/- Helper lemmas for `Verif.Model.Crc`. -/
set_option linter.unusedSimpArgs false

namespace RedFs.Crc

theorem bitSteps_z (c : Word) : bitSteps 0 c = c := by unfold bitSteps; rw [iter]
theorem bitSteps_s (n : Nat) (c : Word) : bitSteps (n+1) c = bitSteps n (bitStep c) := by
  unfold bitSteps; rw [iter]

theorem bitStep_eq (c : Word) :
    bitStep c = (if c.getLsbD 0 then poly else 0#32) ^^^ (c >>> 1) := by
  unfold bitStep
  have h : c &&& 1#32 = if c.getLsbD 0 then 1#32 else 0#32 := by
    ext i hi
    cases h0 : c.getLsbD 0 <;> cases i <;> simp_all
  rw [h]; split <;> simp

theorem bitStep_xor (a b : Word) : bitStep (a ^^^ b) = bitStep a ^^^ bitStep b := by
  simp only [bitStep_eq, BitVec.getLsbD_xor, BitVec.ushiftRight_xor_distrib]
  cases a.getLsbD 0 <;> cases b.getLsbD 0 <;> simp
  · ac_rfl
  · ac_rfl
  · have : poly ^^^ a >>> 1 ^^^ (poly ^^^ b >>> 1) = (poly ^^^ poly) ^^^ (a >>> 1 ^^^ b >>> 1) := by ac_rfl
    rw [this]; simp

theorem bitStep_zero : bitStep 0#32 = 0#32 := by simp [bitStep]

theorem bitSteps_xor (n : Nat) (a b : Word) :
    bitSteps n (a ^^^ b) = bitSteps n a ^^^ bitSteps n b := by
  induction n generalizing a b with
  | zero => simp only [bitSteps_z]
  | succ n ih => simp only [bitSteps_s, bitStep_xor, ih]

theorem bitSteps_zero (n : Nat) : bitSteps n 0#32 = 0#32 := by
  induction n with
  | zero => simp only [bitSteps_z]
  | succ n ih => simp only [bitSteps_s, bitStep_zero, ih]

theorem bitSteps_add (m n : Nat) (c : Word) :
    bitSteps (m + n) c = bitSteps n (bitSteps m c) := by
  induction m generalizing c with
  | zero => simp [bitSteps_z]
  | succ m ih => rw [Nat.succ_add]; simp [bitSteps_s, ih]

theorem bitStep_shift (c : Word) (h : c.getLsbD 0 = false) : bitStep c = c >>> 1 := by
  rw [bitStep_eq, h]; simp

/-- Shifting out `n` zero bits. -/
theorem bitSteps_shift (n : Nat) (c : Word) (h : ∀ i < n, c.getLsbD i = false) :
    bitSteps n c = c >>> n := by
  induction n generalizing c with
  | zero => simp [bitSteps_z]
  | succ n ih =>
    rw [bitSteps_s, bitStep_shift c (h 0 (by omega)), ih]
    · rw [← BitVec.shiftRight_add, Nat.add_comm]
    · intro i hi; simp; exact h (1 + i) (by omega)

theorem ff_bit (i : Nat) (hi : i < 32) : (0xFF#32).getLsbD i = decide (i < 8) := by
  have : ∀ i : Fin 32, (0xFF#32).getLsbD i.1 = decide (i.1 < 8) := by decide
  exact this ⟨i, hi⟩

theorem split_byte (c : Word) : c = (c &&& 0xFF#32) ^^^ ((c >>> 8) <<< 8) := by
  ext i hi
  have := ff_bit i hi
  rw [← BitVec.getLsbD_eq_getElem, ← BitVec.getLsbD_eq_getElem]
  simp only [BitVec.getLsbD_xor, BitVec.getLsbD_and, this, BitVec.getLsbD_shiftLeft,
    BitVec.getLsbD_ushiftRight]
  by_cases h : i < 8
  · simp [h]
  · have : 8 + (i - 8) = i := by omega
    simp [h, hi, this]

/-- One byte of processing: low byte through the eight steps, the rest shifted. -/
theorem bitSteps8 (c : Word) : bitSteps 8 c = bitSteps 8 (c &&& 0xFF#32) ^^^ (c >>> 8) := by
  conv => lhs; rw [split_byte c, bitSteps_xor]
  congr 1
  rw [bitSteps_shift]
  · ext i hi
    rw [← BitVec.getLsbD_eq_getElem, ← BitVec.getLsbD_eq_getElem]
    simp only [BitVec.getLsbD_ushiftRight, BitVec.getLsbD_shiftLeft]
    by_cases h : 8 + i < 32
    · simp [h]
    · have : c.getLsbD (8 + i) = false := by apply BitVec.getLsbD_of_ge; omega
      simp [this]
  · intro i hi; simp [BitVec.getLsbD_shiftLeft]; omega

/-! Tables.  The kernel evaluates the bit steps on `Nat` (fast arithmetic), for
every table entry; the bridge to `BitVec` is proved. -/

def bitStepN (c : Nat) : Nat := ((c &&& 1) * 0xEDB88320) ^^^ (c >>> 1)
def bitStepsN (n : Nat) (c : Nat) : Nat := iter n bitStepN c
theorem bitStepsN_z (c : Nat) : bitStepsN 0 c = c := by unfold bitStepsN; rw [iter]
theorem bitStepsN_s (n : Nat) (c : Nat) : bitStepsN (n+1) c = bitStepsN n (bitStepN c) := by
  unfold bitStepsN; rw [iter]

theorem bitStepN_eq (c : Word) : (bitStep c).toNat = bitStepN c.toNat := by
  unfold bitStep bitStepN poly
  rw [BitVec.toNat_xor, BitVec.toNat_mul, BitVec.toNat_and, BitVec.toNat_ushiftRight]
  have h1 : (1#32).toNat = 1 := rfl
  have h2 : (0xEDB88320#32).toNat = 0xEDB88320 := rfl
  rw [h1, h2]
  have h3 : c.toNat &&& 1 = c.toNat % 2 := Nat.and_two_pow_sub_one_eq_mod c.toNat 1
  rw [h3, Nat.mod_eq_of_lt (a := c.toNat % 2 * 3988292384) (by omega)]

theorem bitStepsN_eq (n : Nat) (c : Word) : (bitSteps n c).toNat = bitStepsN n c.toNat := by
  induction n generalizing c with
  | zero => rw [bitSteps_z, bitStepsN_z]
  | succ n ih => rw [bitSteps_s, bitStepsN_s, ih, bitStepN_eq]

theorem tableSarwate_all :
    (tableSarwate.toList.map BitVec.toNat == (List.range 256).map (fun x => bitStepsN 8 x)) = true := by
  decide +kernel

theorem tableSlice_all :
    (tableSlice8.toList.map BitVec.toNat
      == (List.range 2048).map (fun i => bitStepsN (8*(i%8+1)) (i/8))) = true := by decide +kernel

theorem table_get (t : Array Word) (f : Nat → Nat) (n : Nat)
    (h : (t.toList.map BitVec.toNat == (List.range n).map f) = true) (x : Nat) (hx : x < n) :
    (t[x]!).toNat = f x := by
  have h := eq_of_beq h
  have hl : t.size = n := by simpa using congrArg List.length h
  have := congrArg (fun l => l[x]?) h
  simp [hx, hl] at this
  simp [hx, hl, this]

theorem tableSarwate_ok :
    ∀ x : Fin 256, tableSarwate[x.1]! = bitSteps 8 (BitVec.ofNat 32 x.1) := by
  intro x
  apply BitVec.eq_of_toNat_eq
  rw [table_get _ _ _ tableSarwate_all x.1 x.2, bitStepsN_eq]
  congr 1; simp; omega

theorem sliceTab_ok (k : Nat) (hk : k < 8) (x : Nat) (hx : x < 256) :
    sliceTab k x = bitSteps (8 * (k+1)) (BitVec.ofNat 32 x) := by
  apply BitVec.eq_of_toNat_eq
  unfold sliceTab
  have e : x <<< 3 + k = 8 * x + k := by rw [Nat.shiftLeft_eq]; omega
  rw [e, table_get _ _ _ tableSlice_all (8 * x + k) (by omega), bitStepsN_eq]
  have h1 : (8 * x + k) % 8 = k := by omega
  have h2 : (8 * x + k) / 8 = x := by omega
  rw [h1, h2]; congr 1; simp; omega

theorem slice0_ok (x : Fin 256) : sliceTab 0 x.1 = bitSteps 8 (BitVec.ofNat 32 x.1) :=
  sliceTab_ok 0 (by omega) x.1 x.2

theorem and_ff_lt (c : Word) : (c &&& 0xFF#32).toNat < 256 := by
  have : (c &&& 0xFF#32).toNat = c.toNat % 256 := by
    rw [BitVec.toNat_and]; exact Nat.and_two_pow_sub_one_eq_mod c.toNat 8
  omega

theorem byte_and_ff (b : Byte) : b.setWidth 32 &&& 0xFF#32 = b.setWidth 32 := by
  ext i hi
  have := ff_bit i hi
  rw [← BitVec.getLsbD_eq_getElem, ← BitVec.getLsbD_eq_getElem]
  simp only [BitVec.getLsbD_and, this, BitVec.getLsbD_setWidth]
  by_cases h : i < 8
  · simp [h]
  · have : b.getLsbD i = false := by apply BitVec.getLsbD_of_ge; omega
    simp [this]

theorem byte_shr8 (b : Byte) : (b.setWidth 32 : Word) >>> 8 = 0#32 := by
  ext i hi
  rw [← BitVec.getLsbD_eq_getElem]
  simp [BitVec.getLsbD_ushiftRight, BitVec.getLsbD_setWidth]

theorem byteStep_sarwate (c : Word) (b : Byte) : byteStepSarwate c b = byteStepBitwise c b := by
  unfold byteStepSarwate byteStepBitwise
  rw [bitSteps8, BitVec.ushiftRight_xor_distrib, byte_shr8]
  have := tableSarwate_ok ⟨_, and_ff_lt (c ^^^ b.setWidth 32)⟩
  simp only at this
  rw [this, BitVec.ofNat_toNat, BitVec.setWidth_eq, BitVec.xor_comm]; simp

theorem byteStep_slice (c : Word) (b : Byte) : byteStepSlice c b = byteStepBitwise c b := by
  unfold byteStepSlice byteStepBitwise
  rw [bitSteps8, BitVec.ushiftRight_xor_distrib, byte_shr8]
  have := slice0_ok ⟨_, and_ff_lt (c ^^^ b.setWidth 32)⟩
  simp only [sliceTab, Nat.add_zero] at this
  rw [this, BitVec.ofNat_toNat, BitVec.setWidth_eq, BitVec.xor_comm]; simp

theorem byteStep_lin (c : Word) (b : Byte) :
    byteStepBitwise c b = bitSteps 8 c ^^^ bitSteps 8 (b.setWidth 32) := by
  simp [byteStepBitwise, bitSteps_xor]

theorem foldl_eight (c : Word) (b0 b1 b2 b3 b4 b5 b6 b7 : Byte) :
    [b0,b1,b2,b3,b4,b5,b6,b7].foldl byteStepBitwise c =
      bitSteps 64 c ^^^ bitSteps 64 (b0.setWidth 32) ^^^ bitSteps 56 (b1.setWidth 32) ^^^
      bitSteps 48 (b2.setWidth 32) ^^^ bitSteps 40 (b3.setWidth 32) ^^^ bitSteps 32 (b4.setWidth 32) ^^^
      bitSteps 24 (b5.setWidth 32) ^^^ bitSteps 16 (b6.setWidth 32) ^^^ bitSteps 8 (b7.setWidth 32) := by
  simp only [List.foldl, byteStep_lin, bitSteps_xor, ← bitSteps_add]

/-- A word splits into its four bytes. -/
theorem split_word (c : Word) :
    c = (c &&& 0xFF#32) ^^^ (((c >>> 8) &&& 0xFF#32) <<< 8) ^^^ (((c >>> 16) &&& 0xFF#32) <<< 16)
      ^^^ (((c >>> 24) &&& 0xFF#32) <<< 24) := by
  ext i hi
  rw [← BitVec.getLsbD_eq_getElem, ← BitVec.getLsbD_eq_getElem]
  simp only [BitVec.getLsbD_xor, BitVec.getLsbD_and, BitVec.getLsbD_shiftLeft,
    BitVec.getLsbD_ushiftRight]
  rw [ff_bit i hi, ff_bit (i-8) (by omega), ff_bit (i-16) (by omega), ff_bit (i-24) (by omega)]
  have e1 : 8 ≤ i → 8 + (i - 8) = i := by omega
  have e2 : 16 ≤ i → 16 + (i - 16) = i := by omega
  have e3 : 24 ≤ i → 24 + (i - 24) = i := by omega
  by_cases h1 : i < 8
  · have h2 : i < 16 := by omega
    have h3 : i < 24 := by omega
    simp [h1, h2, h3]
  · rw [e1 (by omega)]
    by_cases h2 : i < 16
    · have h3 : i < 24 := by omega
      have h4 : i - 8 < 8 := by omega
      simp [h1, h2, h3, h4, hi]
    · rw [e2 (by omega)]
      by_cases h3 : i < 24
      · have h4 : ¬ i - 8 < 8 := by omega
        have h5 : i - 16 < 8 := by omega
        simp [h1, h2, h3, h4, h5, hi]
      · rw [e3 (by omega)]
        have h4 : ¬ i - 8 < 8 := by omega
        have h5 : ¬ i - 16 < 8 := by omega
        have h6 : i - 24 < 8 := by omega
        simp [h1, h2, h3, h4, h5, h6, hi]

theorem bitSteps_shl (n : Nat) (x : Word) (m : Nat) (hx : x.toNat < 256) (hm : m ≤ 24) :
    bitSteps (n + m) (x <<< m) = bitSteps n x := by
  rw [Nat.add_comm, bitSteps_add, bitSteps_shift m]
  · congr 1
    have hb : ∀ j, 8 ≤ j → x.getLsbD j = false := by
      intro j hj
      rw [BitVec.getLsbD]
      apply Nat.testBit_lt_two_pow
      calc x.toNat < 2^8 := hx
        _ ≤ 2^j := Nat.pow_le_pow_right (by omega) hj
    ext i hi
    rw [← BitVec.getLsbD_eq_getElem, ← BitVec.getLsbD_eq_getElem]
    simp only [BitVec.getLsbD_ushiftRight, BitVec.getLsbD_shiftLeft]
    by_cases h : m + i < 32
    · simp [h]
    · rw [hb i (by omega)]; simp [h]
  · intro i hi; simp [BitVec.getLsbD_shiftLeft]; omega

theorem setWidth_lt (b : Byte) : (b.setWidth 32 : Word).toNat < 256 := by
  rw [BitVec.toNat_setWidth]; have := b.isLt; omega

theorem or_eq_xor (a b : Word) (h : ∀ i, (a.getLsbD i && b.getLsbD i) = false) : a ||| b = a ^^^ b := by
  ext i hi
  rw [← BitVec.getLsbD_eq_getElem, ← BitVec.getLsbD_eq_getElem]
  have := h i
  simp only [BitVec.getLsbD_or, BitVec.getLsbD_xor]
  cases ha : a.getLsbD i <;> cases hb : b.getLsbD i <;> simp_all

theorem byte_high (b : Byte) (j : Nat) (hj : 8 ≤ j) : b.getLsbD j = false :=
  BitVec.getLsbD_of_ge _ _ hj

theorem leWord_xor (b0 b1 b2 b3 : Byte) :
    leWord b0 b1 b2 b3 = b0.setWidth 32 ^^^ (b1.setWidth 32 <<< 8) ^^^ (b2.setWidth 32 <<< 16)
      ^^^ (b3.setWidth 32 <<< 24) := by
  unfold leWord
  rw [or_eq_xor, or_eq_xor, or_eq_xor]
  all_goals
    intro i
    simp only [BitVec.getLsbD_or, BitVec.getLsbD_xor, BitVec.getLsbD_shiftLeft, BitVec.getLsbD_setWidth]
    by_cases h1 : i < 8 <;> by_cases h2 : i < 16 <;> by_cases h3 : i < 24 <;>
      by_cases h4 : i < 32 <;> simp [h1, h2, h3, h4] <;> try omega
  all_goals
    try simp [byte_high _ i (by omega)]
  all_goals
    try simp [byte_high _ (i-8) (by omega)]
  all_goals
    try simp [byte_high _ (i-16) (by omega)]

theorem tab_byte (k : Nat) (hk : k < 8) (b : Byte) :
    sliceTab k b.toNat = bitSteps (8 * (k+1)) (b.setWidth 32) := by
  rw [sliceTab_ok k hk _ b.isLt]
  congr 1
  apply BitVec.eq_of_toNat_eq; simp

theorem tab_word (k : Nat) (hk : k < 8) (c : Word) :
    sliceTab k (c &&& 0xFF#32).toNat = bitSteps (8 * (k+1)) (c &&& 0xFF#32) := by
  rw [sliceTab_ok k hk _ (and_ff_lt c), BitVec.ofNat_toNat, BitVec.setWidth_eq]

theorem slice8_eq (c : Word) (b0 b1 b2 b3 b4 b5 b6 b7 : Byte) :
    slice8 c b0 b1 b2 b3 b4 b5 b6 b7 = [b0,b1,b2,b3,b4,b5,b6,b7].foldl byteStepBitwise c := by
  have key : ∀ w : Word,
      sliceTab 4 ((w >>> 24) &&& 0xFF#32).toNat ^^^ sliceTab 5 ((w >>> 16) &&& 0xFF#32).toNat ^^^
      sliceTab 6 ((w >>> 8) &&& 0xFF#32).toNat ^^^ sliceTab 7 (w &&& 0xFF#32).toNat = bitSteps 64 w := by
    intro w
    conv => rhs; rw [split_word w]
    rw [tab_word 4 (by omega), tab_word 5 (by omega), tab_word 6 (by omega), tab_word 7 (by omega)]
    simp only [bitSteps_xor]
    rw [show (64:Nat) = 56 + 8 from rfl, bitSteps_shl 56 _ 8 (and_ff_lt _) (by omega)]
    rw [show (56 + 8:Nat) = 48 + 16 from rfl, bitSteps_shl 48 _ 16 (and_ff_lt _) (by omega)]
    rw [show (48 + 16:Nat) = 40 + 24 from rfl, bitSteps_shl 40 _ 24 (and_ff_lt _) (by omega)]
    simp only [Nat.reduceAdd, Nat.reduceMul]
    ac_rfl
  have le : bitSteps 64 (leWord b0 b1 b2 b3) =
      bitSteps 64 (b0.setWidth 32) ^^^ bitSteps 56 (b1.setWidth 32) ^^^
      bitSteps 48 (b2.setWidth 32) ^^^ bitSteps 40 (b3.setWidth 32) := by
    rw [leWord_xor]
    simp only [bitSteps_xor]
    rw [show (64:Nat) = 56 + 8 from rfl, bitSteps_shl 56 _ 8 (setWidth_lt _) (by omega)]
    rw [show (56 + 8:Nat) = 48 + 16 from rfl, bitSteps_shl 48 _ 16 (setWidth_lt _) (by omega)]
    rw [show (48 + 16:Nat) = 40 + 24 from rfl, bitSteps_shl 40 _ 24 (setWidth_lt _) (by omega)]
  rw [foldl_eight]
  unfold slice8
  simp only
  rw [key (c ^^^ leWord b0 b1 b2 b3), bitSteps_xor, le]
  rw [tab_byte 0 (by omega), tab_byte 1 (by omega), tab_byte 2 (by omega), tab_byte 3 (by omega)]
  simp only [Nat.reduceAdd, Nat.reduceMul]
  ac_rfl

theorem sliceLoop_eq (c : Word) (l : List Byte) : sliceLoop c l = l.foldl byteStepBitwise c := by
  fun_induction sliceLoop c l with
  | case1 c b0 b1 b2 b3 b4 b5 b6 b7 rest ih =>
    rw [ih, slice8_eq]; simp only [List.foldl]
  | case2 c rest _ =>
    have : byteStepSlice = byteStepBitwise := by funext c b; exact byteStep_slice c b
    rw [this]

/-! Injectivity: the basis of error detection. -/

theorem bitStep_top (c : Word) : (bitStep c).getLsbD 31 = c.getLsbD 0 := by
  rw [bitStep_eq]
  have hp : poly.getLsbD 31 = true := by decide
  have h32 : c.getLsbD 32 = false := BitVec.getLsbD_of_ge _ _ (by omega)
  cases h : c.getLsbD 0 <;> simp [BitVec.getLsbD_xor, BitVec.getLsbD_ushiftRight, hp, h32]

theorem bitStep_inj (a b : Word) (h : bitStep a = bitStep b) : a = b := by
  have h0 : a.getLsbD 0 = b.getLsbD 0 := by rw [← bitStep_top, ← bitStep_top, h]
  have h1 : a >>> 1 = b >>> 1 := by
    have h' := h
    rw [bitStep_eq, bitStep_eq, h0] at h'
    have := congrArg (fun x => (if b.getLsbD 0 then poly else 0#32) ^^^ x) h'
    simpa [← BitVec.xor_assoc] using this
  ext i hi
  rw [← BitVec.getLsbD_eq_getElem, ← BitVec.getLsbD_eq_getElem]
  cases i with
  | zero => exact h0
  | succ i =>
    have := congrArg (fun x => x.getLsbD i) h1
    simpa [Nat.add_comm] using this

theorem bitSteps_inj (n : Nat) (a b : Word) (h : bitSteps n a = bitSteps n b) : a = b := by
  induction n generalizing a b with
  | zero => simpa only [bitSteps_z] using h
  | succ n ih => rw [bitSteps_s, bitSteps_s] at h; exact bitStep_inj _ _ (ih _ _ h)

/-- Feeding one message bit. -/
def bit1 (c : Word) (b : Bool) : Word := bitStep (c ^^^ (if b then 1#32 else 0#32))

/-- The bits of a byte, least significant first (the order in which the CRC
consumes them). -/
def byteBits (b : Byte) : List Bool := (List.range 8).map b.getLsbD

theorem foldl_bit1_lin (l : List Bool) (c d : Word) :
    l.foldl bit1 (c ^^^ d) = l.foldl bit1 c ^^^ bitSteps l.length d := by
  induction l generalizing c d with
  | nil => simp only [List.foldl, List.length_nil, bitSteps_z]
  | cons b l ih =>
    have : bit1 (c ^^^ d) b = bit1 c b ^^^ bitStep d := by
      unfold bit1
      rw [← bitStep_xor]; congr 1; ac_rfl
    simp only [List.foldl, List.length_cons, bitSteps_s, this, ih]

/-- A list of at most 32 bits as a word, first bit least significant. -/
def packBits : List Bool → Word
  | [] => 0#32
  | b :: l => (if b then 1#32 else 0#32) ^^^ (packBits l <<< 1)

theorem packBits_get (l : List Bool) (i : Nat) (hl : l.length ≤ 32) :
    (packBits l).getLsbD i = l.getD i false := by
  induction l generalizing i with
  | nil => simp [packBits]
  | cons b l ih =>
    simp only [List.length_cons] at hl
    simp only [packBits, BitVec.getLsbD_xor, BitVec.getLsbD_shiftLeft]
    cases i with
    | zero => cases b <;> simp
    | succ i =>
      have h1 : (if b then 1#32 else 0#32 : Word).getLsbD (i+1) = false := by
        cases b <;> simp [BitVec.getLsbD_one]
      rw [h1]
      simp only [Nat.add_sub_cancel, Nat.not_lt_zero, Bool.false_xor]
      rw [ih i (by omega)]
      by_cases hi : i + 1 < 32
      · simp [hi]
      · have : l.length ≤ i := by omega
        simp [hi, this]

theorem foldl_bit1_pack (l : List Bool) (hl : l.length ≤ 32) :
    l.foldl bit1 0#32 = bitSteps l.length (packBits l) := by
  induction l with
  | nil => simp only [List.foldl, List.length_nil, bitSteps_z, packBits]
  | cons b l ih =>
    simp only [List.length_cons] at hl
    simp only [List.foldl, List.length_cons, bitSteps_s]
    have e : bit1 0#32 b = 0#32 ^^^ bit1 0#32 b := by simp
    rw [e, foldl_bit1_lin, ih (by omega), ← bitSteps_xor]
    congr 1
    rw [packBits, bitStep_xor, BitVec.xor_comm]
    have hs : bitStep (packBits l <<< 1) = packBits l := by
      rw [bitStep_shift _ (by simp)]
      ext i hi
      rw [← BitVec.getLsbD_eq_getElem, ← BitVec.getLsbD_eq_getElem]
      simp only [BitVec.getLsbD_ushiftRight, BitVec.getLsbD_shiftLeft]
      by_cases h : 1 + i < 32
      · simp [h]
      · rw [packBits_get l i (by omega)]
        have : l.length ≤ i := by omega
        simp [h, this]
    rw [hs]; unfold bit1; rw [BitVec.zero_xor]

theorem byteBits_pack : ∀ b : Fin 256, packBits (byteBits (BitVec.ofFin b)) = (BitVec.ofFin b : Byte).setWidth 32 := by
  decide +kernel

theorem foldl_byteBits (c : Word) (b : Byte) : (byteBits b).foldl bit1 c = byteStepBitwise c b := by
  have hl : (byteBits b).length = 8 := by simp [byteBits]
  have e : c = 0#32 ^^^ c := by simp
  conv => lhs; rw [e]
  rw [foldl_bit1_lin, foldl_bit1_pack _ (by omega), hl, byteStep_lin]
  have := byteBits_pack b.toFin
  rw [BitVec.xor_comm]; congr 2

/-- The bit stream of a buffer. -/
def bits (m : List Byte) : List Bool := m.flatMap byteBits

theorem foldl_bits (m : List Byte) (c : Word) :
    (bits m).foldl bit1 c = m.foldl byteStepBitwise c := by
  induction m generalizing c with
  | nil => rfl
  | cons b m ih =>
    simp only [bits, List.flatMap_cons, List.foldl_append, foldl_byteBits, List.foldl]
    exact ih _

theorem bits_length (m : List Byte) : (bits m).length = 8 * m.length := by
  induction m with
  | nil => rfl
  | cons b m ih =>
    have : (byteBits b).length = 8 := by simp [byteBits]
    simp only [bits, List.flatMap_cons, List.length_append, this, List.length_cons] at *
    omega

theorem packBits_inj (a b : List Bool) (hl : a.length = b.length) (h32 : a.length ≤ 32)
    (h : packBits a = packBits b) : a = b := by
  apply List.ext_getElem hl
  intro i h1 h2
  have := congrArg (fun x => x.getLsbD i) h
  simp only [packBits_get a i h32, packBits_get b i (by omega)] at this
  simpa [List.getD_eq_getElem?_getD, h1, h2] using this

end RedFs.Crc
