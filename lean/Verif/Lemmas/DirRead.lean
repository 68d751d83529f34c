import Verif.Lemmas.DirOps
set_option linter.unusedSimpArgs false
set_option linter.unusedVariables false
namespace RedFs
open M Bitmap Vol Str

variable {c : Conf} {v v' : Vol} {ci ci' : Cinode} {d : ADir}

theorem readBlock_spec (hc : c.Ok) (hp : c.PosixOk) (ok : DirOk c d) {x : Blk} {base : Nat} : ∀ n k, Holds c d x base (k + n) →
    (∃ k', readBlock c x n k = some k' ∧ k ≤ k' ∧ k' < k + n ∧ d.slot (base + k') ≠ none ∧ ∀ j, k ≤ j → j < k' → d.slot (base + j) = none) ∨
    (readBlock c x n k = none ∧ ∀ j, k ≤ j → j < k + n → d.slot (base + j) = none) := by
  intro n
  induction n with
  | zero => intro k _; exact Or.inr ⟨rfl, fun j h1 h2 => by omega⟩
  | succ n ih =>
    intro k H
    have hu := H.used hc hp ok (k := k) (by omega)
    unfold readBlock
    split
    · next hne => exact Or.inl ⟨k, rfl, Nat.le_refl _, by omega, fun hz => hne (hu.2 hz), fun j h1 h2 => by omega⟩
    · next hz =>
      have hz : direntIno c x k = 0 := by simpa using hz
      rcases ih (k + 1) (by rw [show k + 1 + n = k + (n + 1) by omega]; exact H) with ⟨k', e, a1, a2, a3, a4⟩ | ⟨e, a⟩
      · refine Or.inl ⟨k', e, by omega, by omega, a3, fun j h1 h2 => ?_⟩
        by_cases hj : j = k
        · rw [hj]; exact hu.1 hz
        · exact a4 j (by omega) h2
      · refine Or.inr ⟨e, fun j h1 h2 => ?_⟩
        by_cases hj : j = k
        · rw [hj]; exact hu.1 hz
        · exact a j (by omega) (by omega)

theorem strNCpy_pad {s : List Byte} (h : ∀ b ∈ s, b ≠ 0#8) {n : Nat} (hl : s.length ≤ n) :
    strNCpy (s ++ List.replicate (n - s.length) 0#8) n = s ++ List.replicate (n - s.length) 0#8 := by
  induction s generalizing n with
  | nil =>
    simp only [List.nil_append, List.length_nil, Nat.sub_zero]
    cases n with
    | zero => rfl
    | succ n => show (if (0#8 : Byte) = 0#8 then _ else _) = _; rw [if_pos rfl, strNCpy_nil]; rfl
  | cons a s ih =>
    cases n with
    | zero => simp at hl
    | succ n =>
      have ha : a ≠ 0#8 := h a (by simp)
      show (if a = 0#8 then _ else a :: strNCpy (s ++ List.replicate (n + 1 - (s.length + 1)) 0#8) n) = _
      rw [if_neg ha, show n + 1 - (s.length + 1) = n - s.length by omega, ih (fun b hb => h b (by simp [hb])) (by simp at hl; omega)]
      simp

/-- The result of reading a directory from entry `idx`: the next entry in use, or none. -/
def ReadOk (d : ADir) (idx : Nat) : Nat × Option (List Byte × Nat) → Prop
  | (n, some (s, i)) => ∃ k, n = k + 1 ∧ idx ≤ k ∧ k < d.n ∧ d.slot k = some (i, s) ∧ ∀ j, idx ≤ j → j < k → d.slot j = none
  | (n, none) => n = d.n ∧ ∀ j, idx ≤ j → d.slot j = none

theorem readLoop_spec (hc : c.Ok) (hp : c.PosixOk) (h : Wf c v) : ∀ fuel idx ci, MDir c v ci d → (idx < d.n → d.n ≤ idx + fuel) →
    ∃ r ci', readLoop c d.n fuel idx ⟨ci, v⟩ = (.ok r, ⟨ci', v⟩) ∧ Mnt c v ci' ∧ CiSame ci ci' ∧
      match r with
      | some (k, name, i) => ∃ s, name = s ++ List.replicate (c.nameMax - s.length) 0#8 ∧ idx ≤ k ∧ k < d.n ∧ d.slot k = some (i, s) ∧ ∀ j, idx ≤ j → j < k → d.slot j = none
      | none => ∀ j, idx ≤ j → d.slot j = none := by
  intro fuel
  induction fuel with
  | zero =>
    intro idx ci hd hf
    unfold readLoop
    rw [if_pos (by omega)]
    exact ⟨none, ci, rfl, hd.mnt, .refl ci, fun j hj => hd.ok.out j (by omega)⟩
  | succ fuel ih =>
    intro idx ci hd hf
    unfold readLoop
    by_cases hlt : d.n ≤ idx
    · rw [if_pos hlt]
      exact ⟨none, ci, rfl, hd.mnt, .refl ci, fun j hj => hd.ok.out j (by omega)⟩
    rw [if_neg hlt]
    have hdp := dpb_pos hp
    have hf := hf (by omega)
    have hmax := hd.ok.max
    obtain ⟨ci1, e, m1, s1, hpd⟩ := seekRead_file hc h hd.mnt (b := idx / c.dpb) (blk_max hp (by omega))
    have hd1 := hd.ro m1 s1
    have hdm := Nat.div_add_mod idx c.dpb
    have hml := Nat.mod_lt idx hdp
    rw [Nat.mul_comm] at hdm
    dsimp only
    rw [run_bind, e]
    dsimp only
    by_cases hz : tree c v ci.ino (posOf c (idx / c.dpb)) = 0
    · rw [if_neg (by simp [hz])]
      obtain ⟨r, ci', e', m', s', hr⟩ := ih (idx + (c.dpb - idx % c.dpb)) ci1 hd1 (by omega)
      have hfree : ∀ j, idx ≤ j → j < idx + (c.dpb - idx % c.dpb) → d.slot j = none := by
        intro j h1 h2
        by_cases hj : j < d.n
        · apply hd.sparse hc hp hj
          rw [show j / c.dpb = idx / c.dpb from ?_]; exact hz
          obtain ⟨t, rfl⟩ := Nat.exists_eq_add_of_le h1
          conv_lhs => rw [← hdm]
          rw [Nat.mul_comm, Nat.add_assoc, Nat.mul_add_div hdp, Nat.div_eq_of_lt (show idx % c.dpb + t < c.dpb by omega), Nat.add_zero]
        · exact hd.ok.out j (by omega)
      refine ⟨r, ci', e', m', s1.trans s', ?_⟩
      rcases r with _ | ⟨k, name, i⟩
      · intro j hj
        by_cases hx : j < idx + (c.dpb - idx % c.dpb)
        · exact hfree j hj hx
        · exact hr j (by omega)
      · obtain ⟨s, q1, q2, q3, q4, q5⟩ := hr
        refine ⟨s, q1, by omega, q3, q4, fun j h1 h2 => ?_⟩
        by_cases hx : j < idx + (c.dpb - idx % c.dpb)
        · exact hfree j h1 hx
        · exact q5 j (by omega) h2
    · rw [if_pos (by simp [hz])]
      have hpd := hpd hz
      have hbuf : dataBuf ⟨ci1, v⟩ = (.ok (v.blk (tree c v ci.ino (posOf c (idx / c.dpb)))), ⟨ci1, v⟩) := by
        unfold dataBuf; simp only [run_bind, run_get, run_pure, hpd]; rfl
      rw [run_bind, hbuf]
      dsimp only
      have H := hd.holds hp (b := idx / c.dpb) (n := min c.dpb (d.n - idx / c.dpb * c.dpb)) (by omega) (by omega) hz
      have hsum : idx % c.dpb + (min c.dpb (d.n - idx / c.dpb * c.dpb) - idx % c.dpb) = min c.dpb (d.n - idx / c.dpb * c.dpb) := by omega
      rcases readBlock_spec hc hp hd.ok (min c.dpb (d.n - idx / c.dpb * c.dpb) - idx % c.dpb) (idx % c.dpb) (by rw [hsum]; exact H) with
        ⟨k', e2, a1, a2, a3, a4⟩ | ⟨e2, a⟩
      · rw [e2]
        dsimp only
        rcases hs : d.slot (idx / c.dpb * c.dpb + k') with _ | ⟨i, s⟩
        · exact absurd hs a3
        have hno := hd.ok.name _ _ _ hs
        have hnm := H.name hp (k := k') (by omega) hs hno.max
        have hin : direntIno c (v.blk (tree c v ci.ino (posOf c (idx / c.dpb)))) k' = i := by
          rw [H.ino hc hp hd.ok (k := k') (by omega), hs]; rfl
        refine ⟨some (idx / c.dpb * c.dpb + k', _, i), ci1, by rw [hin]; rfl, m1, s1, s, by rw [hnm, strNCpy_pad hno.nul hno.max], by omega, by omega, hs, fun j h1 h2 => ?_⟩
        have := a4 (j - idx / c.dpb * c.dpb) (by omega) (by omega)
        rwa [show idx / c.dpb * c.dpb + (j - idx / c.dpb * c.dpb) = j by omega] at this
      · rw [e2]
        dsimp only
        have hfree : ∀ j, idx ≤ j → j < idx / c.dpb * c.dpb + min c.dpb (d.n - idx / c.dpb * c.dpb) → d.slot j = none := by
          intro j h1 h2
          have := a (j - idx / c.dpb * c.dpb) (by omega) (by omega)
          rwa [show idx / c.dpb * c.dpb + (j - idx / c.dpb * c.dpb) = j by omega] at this
        obtain ⟨r, ci', e', m', s', hr⟩ := ih (idx / c.dpb * c.dpb + min c.dpb (d.n - idx / c.dpb * c.dpb)) ci1 hd1 (by omega)
        refine ⟨r, ci', e', m', s1.trans s', ?_⟩
        rcases r with _ | ⟨k, name, i⟩
        · intro j hj
          by_cases hx : j < idx / c.dpb * c.dpb + min c.dpb (d.n - idx / c.dpb * c.dpb)
          · exact hfree j hj hx
          · exact hr j (by omega)
        · obtain ⟨s, q1, q2, q3, q4, q5⟩ := hr
          refine ⟨s, q1, by omega, q3, q4, fun j h1 h2 => ?_⟩
          by_cases hx : j < idx / c.dpb * c.dpb + min c.dpb (d.n - idx / c.dpb * c.dpb)
          · exact hfree j h1 hx
          · exact q5 j (by omega) h2

theorem dirRead_spec (hc : c.Ok) (hp : c.PosixOk) (h : Wf c v) (hd : MDir c v ci d) (idx : Nat) :
    ∃ r ci', dirRead c idx ⟨ci, v⟩ = (.ok r, ⟨ci', v⟩) ∧ Mnt c v ci' ∧ CiSame ci ci' ∧ ReadOk d idx r := by
  unfold dirRead
  simp only [run_bind, run_get]
  rw [if_neg hd.nb, if_neg (by rw [hd.dir]; simp), hd.count hp]
  obtain ⟨r, ci', e, m, s, hr⟩ := readLoop_spec hc hp h d.n idx ci hd (by omega)
  rw [run_bind, e]
  dsimp only
  rcases r with _ | ⟨k, name, i⟩
  · exact ⟨_, ci', rfl, m, s, rfl, hr⟩
  · obtain ⟨t, rfl, q⟩ := hr
    refine ⟨(k + 1, some (t, i)), ci', ?_, m, s, k, rfl, q⟩
    have := takeWhile_pad (hd.ok.name _ _ _ q.2.2.1).nul (c.nameMax - t.length)
    dsimp only
    rw [this]; rfl

end RedFs
