import Verif.Model.Mem
namespace RedFs.Mem

/-- Ascending copy is correct if no byte is overwritten before it is read. -/
theorem copyUp_spec (n : Nat) : ∀ (m : Memory) (dst src i : Nat), (dst ≤ src ∨ src + i + n ≤ dst + i) →
    ∀ x, copyUp m dst src i n x =
      if dst + i ≤ x ∧ x < dst + i + n then m (src + (x - dst)) else m x := by
  induction n with
  | zero => intro m dst src i _ x; simp [copyUp]; omega
  | succ n ih =>
    intro m dst src i h x
    rw [copyUp, ih _ _ _ _ (by omega)]
    by_cases h1 : dst + (i+1) ≤ x ∧ x < dst + (i+1) + n
    · rw [if_pos h1, if_pos (by omega)]
      unfold write
      rw [if_neg (by omega)]
    · rw [if_neg h1]
      unfold write
      by_cases h2 : x = dst + i
      · subst h2; rw [if_pos rfl, if_pos (by omega)]; congr 1; omega
      · rw [if_neg h2, if_neg (by omega)]

theorem copyDown_spec (n : Nat) : ∀ (m : Memory) (dst src : Nat), src ≤ dst →
    ∀ x, copyDown m dst src n x =
      if dst ≤ x ∧ x < dst + n then m (src + (x - dst)) else m x := by
  induction n with
  | zero => intro m dst src _ x; simp [copyDown]; omega
  | succ n ih =>
    intro m dst src h x
    rw [copyDown, ih _ _ _ h]
    by_cases h1 : dst ≤ x ∧ x < dst + n
    · rw [if_pos h1, if_pos (by omega)]
      unfold write
      rw [if_neg (by omega)]
    · rw [if_neg h1]
      unfold write
      by_cases h2 : x = dst + n
      · subst h2; rw [if_pos rfl, if_pos (by omega)]; congr 1; omega
      · rw [if_neg h2, if_neg (by omega)]

theorem setUp_spec (n : Nat) : ∀ (m : Memory) (dst : Nat) (v : BitVec 8) (i x : Nat),
    setUp m dst v i n x = if dst + i ≤ x ∧ x < dst + i + n then v else m x := by
  induction n with
  | zero => intro m dst v i x; simp [setUp]; omega
  | succ n ih =>
    intro m dst v i x
    rw [setUp, ih]
    by_cases h1 : dst + (i+1) ≤ x ∧ x < dst + (i+1) + n
    · rw [if_pos h1, if_pos (by omega)]
    · rw [if_neg h1]
      unfold write
      by_cases h2 : x = dst + i
      · rw [if_pos h2, if_pos (by omega)]
      · rw [if_neg h2, if_neg (by omega)]

theorem cmpScan_spec (n : Nat) : ∀ (m : Memory) (a b i : Nat),
    i ≤ cmpScan m a b i n ∧ cmpScan m a b i n ≤ i + n ∧
    (∀ j, i ≤ j → j < cmpScan m a b i n → m (a + j) = m (b + j)) ∧
    (cmpScan m a b i n < i + n → m (a + cmpScan m a b i n) ≠ m (b + cmpScan m a b i n)) := by
  induction n with
  | zero => intro m a b i; simp only [cmpScan]; refine ⟨by omega, by omega, ?_, ?_⟩ <;> intros <;> omega
  | succ n ih =>
    intro m a b i
    rw [cmpScan]
    by_cases h : m (a + i) = m (b + i)
    · rw [if_pos h]
      obtain ⟨h1, h2, h3, h4⟩ := ih m a b (i+1)
      refine ⟨by omega, by omega, ?_, ?_⟩
      · intro j hj hj2
        rcases Nat.eq_or_lt_of_le hj with e | e
        · subst e; exact h
        · exact h3 j e hj2
      · intro hh; exact h4 (by omega)
    · rw [if_neg h]
      refine ⟨by omega, by omega, ?_, ?_⟩
      · intros; omega
      · intro _; exact h

end RedFs.Mem
