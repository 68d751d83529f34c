import Verif.Lemmas.Bitmap
import Verif.Lemmas.Endian
import Verif.Lemmas.Mem
import Verif.Lemmas.Str
/-
Property theorems for the utility layer: C35 (byte order), C38 (bitmaps),
C39 (memory and string primitives).
-/
set_option linter.unusedSimpArgs false
namespace RedFs.Props.Util
open RedFs

/-! ## C38 bitmaps -/
section
open Bitmap

/-- C38: setting bit `i` makes bit `i` read as 1 and leaves every other bit alone. -/
theorem C38_set (bm : Mem8) (i j : Nat) :
    bitGet (bitSet bm i) j = if j = i then true else bitGet bm j := by
  rw [bitGet_set]; by_cases h : i = j
  · simp [h]
  · simp [h, Ne.symm h]

/-- C38: clearing bit `i` makes bit `i` read as 0 and leaves every other bit alone. -/
theorem C38_clear (bm : Mem8) (i j : Nat) :
    bitGet (bitClear bm i) j = if j = i then false else bitGet bm j := by
  rw [bitGet_clear]; by_cases h : i = j
  · simp [h]
  · simp [h, Ne.symm h]

/-- C38: the documented bit order: bit `i` is in byte `i/8`, most significant bit first. -/
theorem C38_order (bm : Mem8) (i : Nat) : bitGet bm i = (bm (i / 8)).getMsbD (i % 8) := by
  rw [bitGet_bit, BitVec.getMsbD]
  have : i % 8 < 8 := by omega
  simp [this]

/-- C38: only the byte which holds the bit is written, so a bitmap of `n` bits never
touches memory outside its `⌈n/8⌉` bytes. -/
theorem C38_bytes (bm : Mem8) (i a : Nat) (h : a ≠ i / 8) :
    bitSet bm i a = bm a ∧ bitClear bm i a = bm a := by
  unfold bitSet bitClear store; rw [shr3]; simp [h]

example : bitGet (fun _ => 0x40#8) 9 = true ∧ bitGet (fun _ => 0x40#8) 8 = false
    ∧ bitSet (fun _ => 0#8) 10 1 = 0x20#8 ∧ bitClear (fun _ => 0xFF#8) 15 1 = 0xFE#8 := by decide
end

/-! ## C35 byte order -/
section
open Endian

/-- C35: byte swapping is exactly the reversal of the bytes, at each width. -/
theorem C35_rev16_bytes (x : BitVec 16) (i j : Nat) (hi : i < 2) (hj : j < 8) :
    (rev16 x).getLsbD (8*i+j) = x.getLsbD (8*(1-i)+j) := rev16_bit x i j hi hj
theorem C35_rev32_bytes (x : BitVec 32) (i j : Nat) (hi : i < 4) (hj : j < 8) :
    (rev32 x).getLsbD (8*i+j) = x.getLsbD (8*(3-i)+j) := rev32_bit x i j hi hj
theorem C35_rev64_bytes (x : BitVec 64) (i j : Nat) (hi : i < 8) (hj : j < 8) :
    (rev64 x).getLsbD (8*i+j) = x.getLsbD (8*(7-i)+j) := rev64_bit x i j hi hj

/-- C35: swapping twice restores the value (used when a node is swapped for writing and
swapped back afterwards). -/
theorem C35_rev16_invol (x : BitVec 16) : rev16 (rev16 x) = x := by
  apply BitVec.eq_of_getLsbD_eq; intro n hn
  have e : n = 8 * (n / 8) + n % 8 := by omega
  rw [e, rev16_bit _ _ _ (by omega) (by omega), rev16_bit _ _ _ (by omega) (by omega)]
  congr 1; omega
theorem C35_rev32_invol (x : BitVec 32) : rev32 (rev32 x) = x := by
  apply BitVec.eq_of_getLsbD_eq; intro n hn
  have e : n = 8 * (n / 8) + n % 8 := by omega
  rw [e, rev32_bit _ _ _ (by omega) (by omega), rev32_bit _ _ _ (by omega) (by omega)]
  congr 1; omega
theorem C35_rev64_invol (x : BitVec 64) : rev64 (rev64 x) = x := by
  apply BitVec.eq_of_getLsbD_eq; intro n hn
  have e : n = 8 * (n / 8) + n % 8 := by omega
  rw [e, rev64_bit _ _ _ (by omega) (by omega), rev64_bit _ _ _ (by omega) (by omega)]
  congr 1; omega

/-- Specification: the byte at memory offset `k` of a `w`-byte integer on a host of the
given byte order. -/
def hostByte {n : Nat} (big : Bool) (w : Nat) (x : BitVec n) (k : Nat) : BitVec 8 :=
  x.extractLsb' (8 * (if big then w - 1 - k else k)) 8

theorem hostByte_ext {n : Nat} (a b : BitVec n) (p q : Nat)
    (h : ∀ j < 8, a.getLsbD (p + j) = b.getLsbD (q + j)) :
    a.extractLsb' p 8 = b.extractLsb' q 8 := by
  apply BitVec.eq_of_getLsbD_eq; intro j hj
  simp only [BitVec.getLsbD_extractLsb', hj, decide_true, Bool.true_and]; exact h j hj

/-- C35: a host which stores the swapped value puts the same bytes on the disk as a host
of the opposite byte order storing the plain value. -/
theorem C35_portable16 (x : BitVec 16) (big : Bool) (k : Nat) (hk : k < 2) :
    hostByte big 2 (rev16 x) k = hostByte (!big) 2 x k := by
  unfold hostByte
  apply hostByte_ext; intro j hj
  cases big
  · simpa using rev16_bit x k j hk hj
  · have := rev16_bit x (1-k) j (by omega) hj
    simp; rw [this]; congr 1; omega
theorem C35_portable32 (x : BitVec 32) (big : Bool) (k : Nat) (hk : k < 4) :
    hostByte big 4 (rev32 x) k = hostByte (!big) 4 x k := by
  unfold hostByte
  apply hostByte_ext; intro j hj
  cases big
  · simpa using rev32_bit x k j hk hj
  · have := rev32_bit x (3-k) j (by omega) hj
    simp; rw [this]; congr 1; omega
theorem C35_portable64 (x : BitVec 64) (big : Bool) (k : Nat) (hk : k < 8) :
    hostByte big 8 (rev64 x) k = hostByte (!big) 8 x k := by
  unfold hostByte
  apply hostByte_ext; intro j hj
  cases big
  · simpa using rev64_bit x k j hk hj
  · have := rev64_bit x (7-k) j (by omega) hj
    simp; rw [this]; congr 1; omega

example : rev32 0x12345678#32 = 0x78563412#32 ∧ rev16 0x1234#16 = 0x3412#16
    ∧ rev64 0x0123456789ABCDEF#64 = 0xEFCDAB8967452301#64 := by decide
end

/-! ## C39 memory and string primitives -/
section
open Mem

/-- C39: `RedMemMove` copies the *original* source bytes whatever the overlap, and
changes nothing else. -/
theorem C39_memMove (m : Memory) (dst src len x : Nat) :
    memMove m dst src len x =
      if dst ≤ x ∧ x < dst + len then m (src + (x - dst)) else m x := by
  unfold memMove
  split
  · simpa using copyUp_spec len m dst src 0 (by omega) x
  · exact copyDown_spec len m dst src (by omega) x

/-- C39: `RedMemCpy` copies correctly when the regions do not overlap. -/
theorem C39_memCpy (m : Memory) (dst src len x : Nat)
    (hov : dst + len ≤ src ∨ src + len ≤ dst) :
    memCpy m dst src len x =
      if dst ≤ x ∧ x < dst + len then m (src + (x - dst)) else m x := by
  simpa [memCpy] using copyUp_spec len m dst src 0 (by omega) x

/-- C39: `RedMemSet`. -/
theorem C39_memSet (m : Memory) (dst len x : Nat) (v : BitVec 8) :
    memSet m dst v len x = if dst ≤ x ∧ x < dst + len then v else m x := by
  simpa [memSet] using setUp_spec len m dst v 0 x

/-- C39: `RedMemCmp` is zero exactly for equal regions; otherwise its sign is that of
the first differing bytes compared as unsigned. -/
theorem C39_memCmp_zero (m : Memory) (a b len : Nat) :
    memCmp m a b len = 0 ↔ ∀ i < len, m (a + i) = m (b + i) := by
  obtain ⟨h1, h2, h3, h4⟩ := cmpScan_spec len m a b 0
  unfold memCmp
  simp only [Nat.zero_add] at *
  constructor
  · intro h i hi
    apply h3 i (by omega)
    by_cases e : cmpScan m a b 0 len = len
    · omega
    · rw [if_neg e] at h; split at h <;> omega
  · intro h
    by_cases e : cmpScan m a b 0 len = len
    · rw [if_pos e]
    · exact absurd (h _ (by omega)) (h4 (by omega))

theorem C39_memCmp_sign (m : Memory) (a b len k : Nat) (hk : k < len)
    (heq : ∀ i < k, m (a + i) = m (b + i)) (hne : m (a + k) ≠ m (b + k)) :
    memCmp m a b len = if (m (a + k)).toNat > (m (b + k)).toNat then 1 else -1 := by
  obtain ⟨h1, h2, h3, h4⟩ := cmpScan_spec len m a b 0
  unfold memCmp
  simp only [Nat.zero_add] at *
  have e : cmpScan m a b 0 len = k := by
    rcases Nat.lt_trichotomy (cmpScan m a b 0 len) k with h | h | h
    · exact absurd (heq _ h) (h4 (by omega))
    · exact h
    · exact absurd (h3 k (by omega) h) hne
  rw [e, if_neg (by omega)]

example : memMove (fun i => BitVec.ofNat 8 i) 12 10 5 16 = 14#8 ∧ memMove (fun i => BitVec.ofNat 8 i) 10 12 5 10 = 12#8
   ∧ memCmp (fun i => BitVec.ofNat 8 (i % 7)) 0 7 20 = 0 ∧ memCmp (fun i => BitVec.ofNat 8 i) 3 4 2 = -1 := by decide
end

section
open Str

/-- C39: `RedStrLen` is the length. -/
theorem C39_strLen (s : CStr) (h : s.Ok) : strLen s = s.length := strLen_ok s h

/-- C39: `RedStrCmp` returns 0 exactly for equal strings, 1 / -1 exactly when the first is
lexicographically greater / smaller with characters compared as unsigned bytes. -/
theorem C39_strCmp (s1 s2 : CStr) (h1 : s1.Ok) (h2 : s2.Ok) :
    (strCmp s1 s2 = 0 ↔ s1 = s2) ∧
    (strCmp s1 s2 = -1 ↔ List.Lex (fun a b => a.toNat < b.toNat) s1 s2) ∧
    (strCmp s1 s2 = 1 ↔ List.Lex (fun a b => a.toNat < b.toNat) s2 s1) := by
  induction s1 generalizing s2 with
  | nil =>
    cases s2 with
    | nil => rw [strCmp_eq]; simp
    | cons b s2 =>
      have hb := h2 b (by simp)
      rw [strCmp_eq]; simp [hb]
  | cons a s1 ih =>
    have ha := h1 a (by simp)
    cases s2 with
    | nil => rw [strCmp_eq]; simp [ha]
    | cons b s2 =>
      have hb := h2 b (by simp)
      rw [strCmp_eq]; simp only
      by_cases e : a = b
      · subst e
        have := ih s2 (fun x hx => h1 x (by simp [hx])) (fun x hx => h2 x (by simp [hx]))
        rw [if_pos ⟨rfl, ha⟩]
        refine ⟨?_, ?_, ?_⟩
        · rw [this.1]; simp
        · rw [this.2.1, lex_cons_iff]; simp
        · rw [this.2.2, lex_cons_iff]; simp
      · have hne : a.toNat ≠ b.toNat := fun h => e (BitVec.eq_of_toNat_eq h)
        rw [if_neg (by simp [e])]
        by_cases hgt : a.toNat > b.toNat
        · have : ¬ a.toNat < b.toNat := by omega
          simp [hgt, e, Ne.symm e, lex_cons_iff, this]
        · have : a.toNat < b.toNat := by omega
          simp [hgt, this, e, Ne.symm e, lex_cons_iff]

/-- C39: `RedStrNCmp` is zero exactly when the first `n` characters agree. -/
theorem C39_strNCmp (s1 s2 : CStr) (h1 : s1.Ok) (h2 : s2.Ok) (n : Nat) :
    strNCmp s1 s2 n = 0 ↔ s1.take n = s2.take n := strNCmp_zero s1 s2 h1 h2 n

/-- C39: `RedStrNCpy` writes exactly `n` bytes: the string cut at `n`, padded with NULs. -/
theorem C39_strNCpy (s : CStr) (h : s.Ok) (n : Nat) :
    strNCpy s n = s.take n ++ List.replicate (n - s.length) 0#8 ∧ (strNCpy s n).length = n := by
  refine ⟨strNCpy_ok s h n, ?_⟩
  rw [strNCpy_ok s h n]; simp; omega

/-- C39: `RedNameLen` is the length of the first path component. -/
theorem C39_nameLen (sep : Ch) (s : CStr) (h : s.Ok) :
    nameLen sep s = (s.takeWhile (fun c => c != sep)).length := nameLen_ok sep s h

example : CStr.Ok [0x61#8, 0x62#8] ∧ strCmp [0x61#8, 0xE2#8] [0x61#8, 0x62#8] = 1
    ∧ strNCmp [0x61#8, 0x62#8, 0x63#8] [0x61#8, 0x62#8] 2 = 0
    ∧ strNCpy [0x61#8] 3 = [0x61#8, 0#8, 0#8]
    ∧ nameLen 0x2F#8 [0x61#8, 0x62#8, 0x2F#8, 0x63#8] = 2 := by decide
end

end RedFs.Props.Util
