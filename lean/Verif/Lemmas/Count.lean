import Verif.Spec.View
namespace RedFs

theorem countIn_congr {p q : Nat → Bool} {lo hi : Nat} (h : ∀ x, lo ≤ x → x < hi → p x = q x) :
    countIn p lo hi = countIn q lo hi := by
  unfold countIn
  apply List.countP_congr
  intro x hx
  rw [List.mem_range'_1] at hx
  rw [h x hx.1 (by omega)]

theorem countIn_split (p : Nat → Bool) {lo mid hi : Nat} (h1 : lo ≤ mid) (h2 : mid ≤ hi) :
    countIn p lo hi = countIn p lo mid + countIn p mid hi := by
  unfold countIn
  rw [← List.countP_append]
  congr 1
  have := List.range'_append_1 (s := lo) (m := mid - lo) (n := hi - mid)
  rw [show lo + (mid - lo) = mid by omega] at this
  rw [this]; congr 1; omega

theorem countIn_one (p : Nat → Bool) (x : Nat) : countIn p x (x+1) = if p x then 1 else 0 := by
  unfold countIn
  simp [List.countP_cons]

/-- Changing `p` at one point. -/
theorem countIn_update {p q : Nat → Bool} {lo hi b : Nat} (h1 : lo ≤ b) (h2 : b < hi)
    (h : ∀ x, lo ≤ x → x < hi → x ≠ b → p x = q x) :
    countIn p lo hi + (if q b then 1 else 0) = countIn q lo hi + (if p b then 1 else 0) := by
  rw [countIn_split p h1 (Nat.le_of_lt h2), countIn_split p (Nat.le_succ b) h2,
    countIn_split q h1 (Nat.le_of_lt h2), countIn_split q (Nat.le_succ b) h2]
  have e1 := countIn_congr (p := p) (q := q) (lo := lo) (hi := b) (fun x a b => h x a (by omega) (by omega))
  have e2 := countIn_congr (p := p) (q := q) (lo := b+1) (hi := hi) (fun x a b => h x (by omega) (by omega) (by omega))
  have f1 := countIn_one p b
  have f2 := countIn_one q b
  simp only [Nat.succ_eq_add_one] at *
  omega

theorem countIn_le (p : Nat → Bool) (lo hi : Nat) : countIn p lo hi ≤ hi - lo := by
  unfold countIn
  exact Nat.le_trans List.countP_le_length (by simp)

theorem countIn_mono {p q : Nat → Bool} {lo hi : Nat} (h : ∀ x, lo ≤ x → x < hi → p x = true → q x = true) : countIn p lo hi ≤ countIn q lo hi := by
  unfold countIn
  refine List.countP_mono_left (fun x hx hp => ?_)
  rw [List.mem_range'_1] at hx
  exact h x hx.1 (by omega) hp

theorem countIn_pos {p : Nat → Bool} {lo hi : Nat} : 0 < countIn p lo hi ↔ ∃ x, lo ≤ x ∧ x < hi ∧ p x = true := by
  unfold countIn
  rw [List.countP_pos_iff]
  constructor
  · rintro ⟨x, hx, hp⟩
    rw [List.mem_range'_1] at hx
    exact ⟨x, hx.1, by omega, hp⟩
  · rintro ⟨x, h1, h2, hp⟩
    exact ⟨x, by rw [List.mem_range'_1]; omega, hp⟩

theorem countIn_add {p q : Nat → Bool} {lo hi : Nat} (h : ∀ x, lo ≤ x → x < hi → ¬ (p x = true ∧ q x = true)) :
    countIn p lo hi + countIn q lo hi = countIn (fun x => p x || q x) lo hi := by
  unfold countIn
  generalize hl : List.range' lo (hi - lo) = l
  have hm : ∀ x ∈ l, ¬ (p x = true ∧ q x = true) := by
    intro x hx; rw [← hl, List.mem_range'_1] at hx; exact h x hx.1 (by omega)
  clear hl
  induction l with
  | nil => rfl
  | cons a t ih =>
    have := ih (fun x hx => hm x (List.mem_cons_of_mem _ hx))
    have ha := hm a List.mem_cons_self
    simp only [List.countP_cons]
    cases hp : p a <;> cases hq : q a <;> simp_all <;> omega

end RedFs
