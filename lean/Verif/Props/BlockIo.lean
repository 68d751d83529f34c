import Verif.Model.BlockIo
/-!
C37: block numbers map to the right sectors, and retries.
-/
set_option linter.unusedVariables false
namespace RedFs.Props.BlockIo
open RedFs RedFs.BlockIo

/-- What the retry loop does, for fewer than 255 retries: it stops at the first success or
after `retries + 1` attempts. -/
theorem retryLoop_spec (f : Nat → Except Err Unit) (r : Req) (retries : Nat) (hr : retries < 255)
    (fuel : Nat) : ∀ idx ret log, idx ≤ retries + 1 → retries + 1 < idx + fuel → log = List.replicate idx r →
      (∀ i, i < idx → f i ≠ .ok ()) → (0 < idx → ret = f (idx - 1)) → (idx = 0 → 0 < retries + 1) →
      ∃ n, 0 < n ∧ n ≤ retries + 1 ∧
        retryLoop (fun log => (f log.length, log ++ [r])) retries fuel idx ret log
          = (f (n - 1), List.replicate n r) ∧
        (∀ i, i < n - 1 → f i ≠ .ok ()) ∧ (f (n - 1) ≠ .ok () → n = retries + 1) := by
  induction fuel with
  | zero => intro idx ret log h1 h2; omega
  | succ fuel ih =>
    intro idx ret log h1 h2 hlog hall hret h0
    unfold retryLoop
    by_cases hle : idx ≤ retries
    · rw [if_pos hle]
      have hlen : log.length = idx := by rw [hlog, List.length_replicate]
      have hrep : log ++ [r] = List.replicate (idx + 1) r := by
        rw [hlog, List.replicate_succ']
      simp only [hlen, hrep]
      rcases hf : f idx with e | u
      · have hm : (idx + 1) % 256 = idx + 1 := Nat.mod_eq_of_lt (by omega)
        simp only [hm]
        exact ih (idx + 1) (.error e) _ (by omega) (by omega) rfl
          (by
            intro i hi
            rcases Nat.lt_succ_iff_lt_or_eq.1 hi with h | h
            · exact hall i h
            · rw [h, hf]; intro h; cases h)
          (by intro _; simp [hf]) (by intro h; omega)
      · refine ⟨idx + 1, by omega, by omega, ?_, ?_, ?_⟩
        · simp [hf]
        · intro i hi; exact hall i (by omega)
        · intro h; simp [hf] at h
    · rw [if_neg hle]
      have hidx : idx = retries + 1 := by omega
      refine ⟨idx, by omega, by omega, ?_, ?_, fun _ => hidx⟩
      · rw [hret (by omega), hlog]
      · intro i hi; exact hall i (by omega)

/-- A block transfer, for every volume geometry the driver accepts, every block range and every
behaviour of the device (`os n` = status of the `n`-th attempt):

* an invalid range is rejected with EINVAL and no request reaches the device;
* otherwise every request is for exactly the sectors of the blocks, which lie inside the
  volume's partition; there are between 1 and `retries + 1` requests, all but the last failed,
  the status returned is that of the last one, and if it is an error all attempts were used. -/
theorem C37_block_io (io : IoVol) (hok : io.Ok) (hr : io.retries < 255) (os : Nat → Except Err Unit)
    (start count fuel : Nat) (hfuel : 256 ≤ fuel) (hcount : count * 2 ^ io.shift < 4294967296) :
    (¬ (start + count ≤ io.blockCount ∧ 0 < count) → ioXfer io os fuel start count = (.error .einval, [])) ∧
    (start + count ≤ io.blockCount → 0 < count →
      ∃ n, 0 < n ∧ n ≤ io.retries + 1 ∧
        ioXfer io os fuel start count
          = (os (n - 1), List.replicate n ⟨io.offset + start * 2 ^ io.shift, count * 2 ^ io.shift⟩) ∧
        (∀ i, i < n - 1 → os i ≠ .ok ()) ∧
        (os (n - 1) ≠ .ok () → n = io.retries + 1) ∧
        io.offset + start * 2 ^ io.shift + count * 2 ^ io.shift ≤ io.offset + io.sectorCount) := by
  constructor
  · intro h
    unfold ioXfer
    rw [if_pos (by omega)]
  · intro h1 h2
    have hin := hok.inside
    have hnw := hok.nowrap
    have hend : start * 2 ^ io.shift + count * 2 ^ io.shift ≤ io.sectorCount := by
      rw [← Nat.add_mul]
      exact Nat.le_trans (Nat.mul_le_mul_right _ h1) hin
    have hs1 : u64 (start <<< io.shift) = start * 2 ^ io.shift := by
      rw [Nat.shiftLeft_eq]; exact Nat.mod_eq_of_lt (by omega)
    have hs2 : u64 (start * 2 ^ io.shift + io.offset) = io.offset + start * 2 ^ io.shift := by
      rw [Nat.add_comm]; exact Nat.mod_eq_of_lt (by omega)
    have hs3 : u32 (count <<< io.shift) = count * 2 ^ io.shift := by
      rw [Nat.shiftLeft_eq]; exact Nat.mod_eq_of_lt hcount
    have hpos : 0 < count * 2 ^ io.shift := Nat.mul_pos h2 (Nat.pow_pos (by decide))
    have hv : rangeValid io ⟨io.offset + start * 2 ^ io.shift, count * 2 ^ io.shift⟩ = true := by
      have : u64 (io.offset + io.sectorCount + (18446744073709551616 - (io.offset + start * 2 ^ io.shift)))
          = io.sectorCount - start * 2 ^ io.shift := by
        unfold u64
        have : io.offset + io.sectorCount + (18446744073709551616 - (io.offset + start * 2 ^ io.shift))
            = (io.sectorCount - start * 2 ^ io.shift) + 18446744073709551616 := by omega
        rw [this, Nat.add_mod_right, Nat.mod_eq_of_lt (by omega)]
      simp only [rangeValid, this, Bool.and_eq_true, decide_eq_true_eq]
      omega
    obtain ⟨n, hn1, hn2, hn3, hn4, hn5⟩ := retryLoop_spec os
      ⟨io.offset + start * 2 ^ io.shift, count * 2 ^ io.shift⟩ io.retries hr fuel 0 (.ok ()) []
      (by omega) (by omega) rfl (by intro i hi; omega) (by intro h; omega) (by intro; omega)
    refine ⟨n, hn1, hn2, ?_, hn4, hn5, by omega⟩
    unfold ioXfer
    rw [if_neg (by omega)]
    simp only [hs1, hs2, hs3, bdevXfer, hv, if_true]
    exact hn3

/-- The sectors of different blocks are disjoint, and byte `i` of block `b` is byte
`i % sectorSize` of sector `offset + b * 2 ^ shift + i / sectorSize`, which belongs to
block `b` only. -/
theorem C37_blocks_disjoint (io : IoVol) (b b' s : Nat)
    (h : io.offset + b * 2 ^ io.shift ≤ s ∧ s < io.offset + b * 2 ^ io.shift + 2 ^ io.shift)
    (h' : io.offset + b' * 2 ^ io.shift ≤ s ∧ s < io.offset + b' * 2 ^ io.shift + 2 ^ io.shift) :
    b = b' := by
  have hp : 0 < 2 ^ io.shift := Nat.pow_pos (by decide)
  have e : ∀ x, io.offset + x * 2 ^ io.shift ≤ s ∧ s < io.offset + x * 2 ^ io.shift + 2 ^ io.shift →
      (s - io.offset) / 2 ^ io.shift = x := by
    intro x hx
    apply Nat.div_eq_of_lt_le
    · omega
    · rw [Nat.succ_mul]; omega
  rw [← e b h, ← e b' h']

/-- Flushing is retried in the same way. -/
theorem C37_flush_retries (io : IoVol) (hr : io.retries < 255) (os : Nat → Except Err Unit)
    (fuel : Nat) (hfuel : 256 ≤ fuel) :
    ∃ n, 0 < n ∧ n ≤ io.retries + 1 ∧ ioFlush io os fuel = (os (n - 1), List.replicate n ⟨0, 0⟩) ∧
      (∀ i, i < n - 1 → os i ≠ .ok ()) ∧ (os (n - 1) ≠ .ok () → n = io.retries + 1) :=
  retryLoop_spec os ⟨0, 0⟩ io.retries hr fuel 0 (.ok ()) []
    (by omega) (by omega) rfl (by intro i hi; omega) (by intro h; omega) (by intro; omega)

/-- A volume of 1000 blocks of 8 sectors at offset 2048, with 2 retries: a device which fails
twice and then works needs three requests. -/
example : IoVol.Ok ⟨1000, 3, 2048, 8000, 2⟩ ∧
    ioXfer ⟨1000, 3, 2048, 8000, 2⟩ (fun n => if n < 2 then .error .eio else .ok ()) 256 10 2
      = (.ok (), List.replicate 3 ⟨2128, 16⟩) := by
  constructor
  · constructor <;> decide
  · rfl

/-- The bound on the number of retries is needed: with `bBlockIoRetries = 255` the 8-bit loop
counter never exceeds it, so that a device which keeps failing makes the driver loop for
ever.  (The configuration tool refuses 255, tools/config/validators.cpp:315-321; the
driver does not check it.) -/
theorem C37_retries_255_hangs (io : IoVol) (h : io.retries = 255) (fuel : Nat) :
    (ioFlush io (fun _ => .error .eio) fuel).1 = .error .hang := by
  have : ∀ fuel idx ret log, idx < 256 →
      (retryLoop (fun log => ((.error .eio : Except Err Unit), log ++ [⟨0, 0⟩])) 255 fuel idx ret log).1
        = .error .hang := by
    intro fuel
    induction fuel with
    | zero => intros; rfl
    | succ f ih =>
      intro idx ret log hi
      unfold retryLoop
      rw [if_pos (by omega)]
      exact ih _ _ _ (Nat.mod_lt _ (by decide))
  unfold ioFlush
  rw [h]
  exact this fuel 0 _ _ (by decide)

end RedFs.Props.BlockIo
