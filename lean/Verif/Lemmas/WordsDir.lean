import Verif.Model.WordsDir
import Verif.Lemmas.WordsPos
import Verif.Lemmas.DirRead
set_option linter.unusedSimpArgs false
set_option linter.unusedVariables false
/-!
The loops over the entries of a directory with 32-bit counters (`Model/WordsDir.lean`) and with
unbounded numbers (`Model/Dir.lean`).
-/
namespace RedFs.Words
open M Str

variable {c : Conf}

/-! ### Seeking, for arbitrary contents of the disk -/

theorem seekInode_err (b : Nat) (s : DS) : (seekInode c b s).1 ≠ .error .hang ∧ (c.dataBlocks ≤ b → (seekInode c b s).1 = .error .einval) := by
  have hA : ∀ s, (RedFs.seekCoord c b s).1 = .ok () := by
    intro s; unfold RedFs.seekCoord; simp only [run_bind, run_get]; split <;> [rfl; (split <;> rfl)]
  have hB : ∀ s, (seekDindir s).1 ≠ .error .hang := by
    intro s; unfold seekDindir; simp only [run_bind, run_get]
    cases s.ci.dindirEntry with
    | none => simp
    | some d =>
      simp only
      split
      · simp [setCi]
      · cases s.ci.pDindir with
        | some x => simp [setCi]
        | none => simp only [run_bind, liftV, getBuf]; split <;> rename_i h <;> split at h <;> simp_all [setCi] <;> (obtain ⟨h1, _⟩ := h; subst h1; simp)
  have hC : ∀ s, (seekIndir s).1 ≠ .error .hang := by
    intro s; unfold seekIndir; simp only [run_bind, run_get]
    cases s.ci.indirEntry with
    | none => simp
    | some d =>
      simp only
      split
      · simp [setCi]
      · cases s.ci.pIndir with
        | some x => simp [setCi]
        | none => simp only [run_bind, liftV, getBuf]; split <;> rename_i h <;> split at h <;> simp_all [setCi] <;> (obtain ⟨h1, _⟩ := h; subst h1; simp)
  constructor
  · unfold seekInode
    simp only [run_bind, run_get]
    split
    · simp
    · simp only [run_bind]
      rcases hm : RedFs.seekCoord c b s with ⟨r, s1⟩
      have h := hA s; rw [hm] at h; simp only at h; subst h
      simp only
      rcases hm2 : seekDindir s1 with ⟨r, s2⟩
      have h := hB s1; rw [hm2] at h
      cases r with
      | error e => simpa using h
      | ok _ =>
        simp only
        rcases hm3 : seekIndir s2 with ⟨r, s3⟩
        have h := hC s2; rw [hm3] at h
        cases r with
        | error e => simpa using h
        | ok _ => simp only [run_get]; split <;> simp
  · intro hb
    unfold seekInode
    simp only [run_bind, run_get]
    rw [if_pos (Or.inr hb)]; rfl

/-- Reading a directory block does not fail with `hang`; beyond the last block of an inode it fails. -/
theorem seekAndRead_err (b : Nat) (s : DS) : (seekAndRead c b s).1 ≠ .error .hang ∧ (c.dataBlocks ≤ b → (seekAndRead c b s).1 = .error .einval) := by
  have h := seekInode_err (c := c) b s
  unfold seekAndRead seekData
  simp only [run_bind, run_attempt]
  rcases hm : seekInode c b s with ⟨r, s1⟩
  rw [hm] at h
  constructor
  · have h := h.1
    cases r with
    | ok _ => simp [setCi]
    | error e => cases e <;> simp_all
  · intro hb
    have h := h.2 hb
    simp only at h
    subst h
    rfl

theorem seekAndRead_lt {b : Nat} {s s' : DS} {r : Bool} (h : seekAndRead c b s = (.ok r, s')) : b < c.dataBlocks := by
  by_cases hb : b < c.dataBlocks
  · exact hb
  · have := (seekAndRead_err (c := c) b s).2 (by omega)
    rw [h] at this; cases this

/-! ### Block numbers -/

theorem blkno (hc : c.Ok) (hp : c.PosixOk) (i : U32) : (i / dpb c).toNat = i.toNat / c.dpb := by rw [div32, dpb_toNat hc hp]
theorem inblk (hc : c.Ok) (hp : c.PosixOk) (i : U32) : (i % dpb c).toNat = i.toNat % c.dpb := by rw [mod32, dpb_toNat hc hp]
theorem dsum (hc : c.Ok) (hp : c.PosixOk) (i : Nat) : i / c.dpb * c.dpb + i % c.dpb = i ∧ i % c.dpb < c.dpb := by
  have := Nat.div_add_mod i c.dpb
  rw [Nat.mul_comm] at this
  exact ⟨this, Nat.mod_lt _ (dpb_bounds hc hp).1⟩

/-- What is assumed of the blocks which are read: after an absent block (`false`) the counter does not wrap. -/
def Step (c : Conf) (C : Nat) (P : DS → Prop) : Prop :=
  ∀ s b r s', P s → b * c.dpb < C → seekAndRead c b s = (.ok r, s') → P s' ∧ (r = false → (b + 1) * c.dpb < 4294967296)

theorem step_small {C : Nat} (h : c.dataBlocks * c.dpb < 4294967296) : Step c C fun _ => True := by
  intro s b r s' _ _ e
  refine ⟨trivial, fun _ => ?_⟩
  have := Nat.mul_le_mul_right c.dpb (show b + 1 ≤ c.dataBlocks from seekAndRead_lt e)
  omega

theorem step_count {C : Nat} (h : C + c.dpb ≤ 4294967296) : Step c C fun _ => True := by
  intro s b r s' _ hb _
  refine ⟨trivial, fun _ => ?_⟩
  rw [Nat.add_mul, Nat.one_mul]
  omega

/-! ### Lookup -/

/-- `DIR_INDEX_INVALID` is `none`. -/
def opt (w : U32) : Option Nat := if w = noIndex then none else some w.toNat

theorem opt_some {w : U32} (h : w.toNat < 4294967295) : opt w = some w.toNat := by
  unfold opt
  rw [if_neg]
  intro e; rw [e] at h; exact absurd h (by decide)
theorem opt_none {w : U32} : opt w = none ↔ w = noIndex := by
  unfold opt; split <;> simp_all

theorem ofNat_add {i : U32} {k : Nat} (h : i.toNat + k < 4294967296) : (i + BitVec.ofNat 32 k).toNat = i.toNat + k := by
  rw [add32 (by rw [ofNat32 (by omega)]; omega), ofNat32 (by omega)]

theorem lookupBlock_eq (x : Blk) (name : List Str.Ch) (len : Nat) (idx : U32) : ∀ n k free, idx.toNat + (k + n) < 4294967296 →
    RedFs.lookupBlock c x name len idx.toNat n k (opt free) =
      ((lookupBlock c x name len idx n k free).1.map fun p => (p.1.toNat, p.2), opt (lookupBlock c x name len idx n k free).2) := by
  intro n
  induction n with
  | zero => intro k free h; rfl
  | succ n ih =>
    intro k free h
    unfold RedFs.lookupBlock lookupBlock
    split
    · split
      · simp [ofNat_add (i := idx) (k := k) (by omega)]
      · exact ih _ _ (by omega)
    · rw [← ih _ _ (by omega)]
      congr 1
      by_cases hf : free = noIndex
      · rw [if_pos hf, if_pos (opt_none.2 hf), opt_some (by rw [ofNat_add (by omega)]; omega), ofNat_add (by omega)]
      · rw [if_neg hf, if_neg (fun h => hf (opt_none.1 h))]

theorem lookupLoop_sim (hc : c.Ok) (hp : c.PosixOk) {P : DS → Prop} (name : List Str.Ch) (len : Nat) {count : U32} (hS : Step c count.toNat P) :
    ∀ fuel (idx free : U32) s, P s → (idx.toNat % c.dpb = 0 ∨ count.toNat ≤ idx.toNat) →
      SimAt (fun a b => b = (a.1.toNat, a.2.1, opt a.2.2)) (lookupLoop c name len count fuel idx free)
        (RedFs.lookupLoop c name len count.toNat fuel idx.toNat (opt free)) s := by
  have hd := dpb_bounds hc hp
  have hcl := count.isLt
  intro fuel
  induction fuel with
  | zero =>
    intro idx free s hs _
    unfold lookupLoop RedFs.lookupLoop
    by_cases h : count ≤ idx
    · rw [if_pos h, if_pos ((le_toNat _ _).1 h)]; exact SimAt.pure rfl
    · rw [if_neg h, if_neg (fun x => h ((le_toNat _ _).2 x))]; exact SimAt.fail
  | succ fuel ih =>
    intro idx free s hs hal
    unfold lookupLoop RedFs.lookupLoop
    by_cases h : count ≤ idx
    · rw [if_pos h, if_pos ((le_toNat _ _).1 h)]; exact SimAt.pure rfl
    rw [if_neg h, if_neg (fun x => h ((le_toNat _ _).2 x))]
    have hlt : idx.toNat < count.toNat := by rw [le_toNat] at h; omega
    have hal : idx.toNat % c.dpb = 0 := by omega
    have hs1 := dsum hc hp idx.toNat
    simp only
    rw [blkno hc hp]
    refine SimAt.bind (R := fun a b => a = b) (SimAt.same fun _ _ _ => rfl) fun r r' s1 e he => ?_
    subst e
    have hst := hS s _ r s1 hs (by omega) he
    cases r with
    | true =>
      simp only [if_true]
      refine SimAt.bind (R := fun a b => a = b) (SimAt.same fun _ _ _ => rfl) fun x x' s2 e hx => ?_
      subst e
      have e2 : s2 = s1 := by unfold dataBuf at hx; simp at hx; exact hx.2.symm
      subst e2
      have hlast : (redmin (dpb c) (count - idx)).toNat = min c.dpb (count.toNat - idx.toNat) := by
        rw [redmin_toNat, dpb_toNat hc hp, sub32 (by omega)]
      have hb := lookupBlock_eq (c := c) x name len idx (redmin (dpb c) (count - idx)).toNat 0 free (by rw [hlast]; omega)
      rw [hlast] at hb
      rw [hlast]
      have hnext : (idx + redmin (dpb c) (count - idx)).toNat = idx.toNat + min c.dpb (count.toNat - idx.toNat) := by
        rw [add32 (by rw [hlast]; omega), hlast]
      rcases hw : lookupBlock c x name len idx (min c.dpb (count.toNat - idx.toNat)) 0 free with ⟨o, free'⟩
      rw [hw] at hb
      cases o with
      | some p =>
        obtain ⟨k, ino⟩ := p
        simp only [Option.map_some] at hb
        rw [hb]
        exact SimAt.pure rfl
      | none =>
        simp only [Option.map_none] at hb
        rw [hb]
        simp only
        rw [← hnext]
        refine ih _ _ _ hst.1 ?_
        rw [hnext]
        by_cases hm : c.dpb ≤ count.toNat - idx.toNat
        · left; rw [Nat.min_eq_left hm, Nat.add_mod_right]; exact hal
        · right; omega
    | false =>
      simp only [Bool.false_eq_true, if_false]
      have hno := hst.2 rfl
      rw [Nat.add_mul, Nat.one_mul] at hno
      have hnext : (idx + dpb c).toNat = idx.toNat + c.dpb := by
        rw [add32 (by rw [dpb_toNat hc hp]; omega), dpb_toNat hc hp]
      have hfr : (if opt free = none then some idx.toNat else opt free) = opt (if free = noIndex then idx else free) := by
        by_cases hf : free = noIndex
        · rw [if_pos hf, if_pos (opt_none.2 hf), opt_some (by omega)]
        · rw [if_neg hf, if_neg (fun h => hf (opt_none.1 h))]
      rw [← hnext, hfr]
      refine ih _ _ _ hst.1 (Or.inl ?_)
      rw [hnext, Nat.add_mod_right]; exact hal

/-! ### Reading -/

theorem readBlock_lt (x : Blk) : ∀ n k k', readBlock c x n k = some k' → k ≤ k' ∧ k' < k + n := by
  intro n
  induction n with
  | zero => intro k k' h; cases h
  | succ n ih =>
    intro k k' h
    unfold readBlock at h
    split at h
    · cases h; omega
    · have := ih _ _ h; omega

theorem readLoop_sim (hc : c.Ok) (hp : c.PosixOk) {P : DS → Prop} {count : U32} (hS : Step c count.toNat P) :
    ∀ fuel (idx : U32) s, P s →
      SimAt (fun a b => b = a.map (fun p => (p.1.toNat, p.2)) ∧ ∀ p, a = some p → p.1.toNat < count.toNat) (readLoop c count fuel idx)
        (RedFs.readLoop c count.toNat fuel idx.toNat) s := by
  have hd := dpb_bounds hc hp
  have hcl := count.isLt
  intro fuel
  induction fuel with
  | zero =>
    intro idx s hs
    unfold readLoop RedFs.readLoop
    by_cases h : count ≤ idx
    · rw [if_pos h, if_pos ((le_toNat _ _).1 h)]; exact SimAt.pure ⟨rfl, fun p h => by cases h⟩
    · rw [if_neg h, if_neg (fun x => h ((le_toNat _ _).2 x))]; exact SimAt.fail
  | succ fuel ih =>
    intro idx s hs
    unfold readLoop RedFs.readLoop
    by_cases h : count ≤ idx
    · rw [if_pos h, if_pos ((le_toNat _ _).1 h)]; exact SimAt.pure ⟨rfl, fun p h => by cases h⟩
    rw [if_neg h, if_neg (fun x => h ((le_toNat _ _).2 x))]
    have hlt : idx.toNat < count.toNat := by rw [le_toNat] at h; omega
    have hs1 := dsum hc hp idx.toNat
    simp only
    rw [blkno hc hp, inblk hc hp]
    refine SimAt.bind (R := fun a b => a = b) (SimAt.same fun _ _ _ => rfl) fun r r' s1 e he => ?_
    subst e
    have hst := hS s _ r s1 hs (by omega) he
    cases r with
    | true =>
      simp only [if_true]
      refine SimAt.bind (R := fun a b => a = b) (SimAt.same fun _ _ _ => rfl) fun x x' s2 e hx => ?_
      subst e
      have e2 : s2 = s1 := by unfold dataBuf at hx; simp at hx; exact hx.2.symm
      subst e2
      have hm : (idx / dpb c * dpb c).toNat = idx.toNat / c.dpb * c.dpb := by
        rw [mul32 (by rw [blkno hc hp, dpb_toNat hc hp]; omega), blkno hc hp, dpb_toNat hc hp]
      have hlast : (redmin (dpb c) (count - idx / dpb c * dpb c)).toNat = min c.dpb (count.toNat - idx.toNat / c.dpb * c.dpb) := by
        rw [redmin_toNat, dpb_toNat hc hp, sub32 (by rw [hm]; omega), hm]
      rw [hlast]
      generalize hL : min c.dpb (count.toNat - idx.toNat / c.dpb * c.dpb) = L
      rcases hr : readBlock c x (L - idx.toNat % c.dpb) (idx.toNat % c.dpb) with _ | k
      · simp only
        have hn : (idx + BitVec.ofNat 32 (L - idx.toNat % c.dpb)).toNat = idx.toNat / c.dpb * c.dpb + L := by
          rw [ofNat_add (by omega)]; omega
        rw [← hn]
        exact ih _ _ hst.1
      · simp only
        have hk := readBlock_lt x _ _ _ hr
        have hn : (idx + BitVec.ofNat 32 (k - idx.toNat % c.dpb)).toNat = idx.toNat / c.dpb * c.dpb + k := by
          rw [ofNat_add (by omega)]; omega
        refine SimAt.pure ⟨?_, fun p h => ?_⟩
        · simp [hn]
        · cases h
          simp only
          rw [hn]; omega
    | false =>
      simp only [Bool.false_eq_true, if_false]
      have hno := hst.2 rfl
      rw [Nat.add_mul, Nat.one_mul] at hno
      have hsub : (dpb c - idx % dpb c).toNat = c.dpb - idx.toNat % c.dpb := by
        rw [sub32 (by rw [inblk hc hp, dpb_toNat hc hp]; omega), inblk hc hp, dpb_toNat hc hp]
      have hnext : (idx + (dpb c - idx % dpb c)).toNat = idx.toNat + (c.dpb - idx.toNat % c.dpb) := by
        rw [add32 (by rw [hsub]; omega), hsub]
      rw [← hnext]
      exact ih _ _ hst.1

/-! ### Trimming -/

theorem trimBlock_le (x : Blk) : ∀ k, trimBlock c x k ≤ k := by
  intro k
  induction k with
  | zero => exact Nat.le_refl _
  | succ k ih => unfold trimBlock; split <;> omega

theorem pred_toNat {t : U32} {n : Nat} (hn : 0 < n) (h2 : n < 4294967296) (h : (t + 1).toNat = n) : t.toNat = n - 1 := by
  rw [BitVec.toNat_add, one32] at h
  have := t.isLt
  omega

theorem trimLoop_sim (hc : c.Ok) (hp : c.PosixOk) : ∀ fuel (t : U32) s,
    ((t + 1).toNat % c.dpb = 0 ∨ (seekAndRead c (t.toNat / c.dpb) s).1 ≠ .ok false) →
      SimAt (fun a b => b = (a + 1).toNat ∧ b ≤ (t + 1).toNat) (trimLoop c fuel t) (RedFs.trimLoop c fuel (t + 1).toNat) s := by
  have hd := dpb_bounds hc hp
  have base : ∀ t : U32, t = 0xFFFFFFFF#32 ↔ (t + 1).toNat = 0 := by
    intro t
    constructor
    · rintro rfl; rfl
    · intro h
      rw [BitVec.toNat_add, one32] at h
      have := t.isLt
      rw [eq_toNat]
      have : (0xFFFFFFFF#32 : U32).toNat = 4294967295 := rfl
      omega
  intro fuel
  induction fuel with
  | zero =>
    intro t s _
    unfold trimLoop RedFs.trimLoop
    by_cases h : t = 0xFFFFFFFF#32
    · rw [if_pos h, if_pos ((base t).1 h)]; subst h; exact SimAt.pure ⟨rfl, Nat.le_refl _⟩
    · rw [if_neg h, if_neg (fun x => h ((base t).2 x))]; exact SimAt.fail
  | succ fuel ih =>
    intro t s hal
    unfold trimLoop RedFs.trimLoop
    by_cases h : t = 0xFFFFFFFF#32
    · rw [if_pos h, if_pos ((base t).1 h)]; subst h; exact SimAt.pure ⟨rfl, Nat.zero_le _⟩
    rw [if_neg h, if_neg (fun x => h ((base t).2 x))]
    have hn0 : (t + 1).toNat ≠ 0 := fun x => h ((base t).2 x)
    have hlt := (t + 1).isLt
    generalize hN : (t + 1).toNat = N at *
    have ht : t.toNat = N - 1 := pred_toNat (by omega) (by omega) hN
    have hs1 := dsum hc hp (N - 1)
    simp only
    rw [blkno hc hp, inblk hc hp, ht]
    rw [ht] at hal
    -- the next value of the counter
    have nxt : ∀ m : Nat, m ≤ N → (t - BitVec.ofNat 32 m + 1).toNat = N - m := by
      intro m hm
      have : t - BitVec.ofNat 32 m + 1 = (t + 1) - BitVec.ofNat 32 m := by
        rw [BitVec.sub_eq_add_neg, BitVec.sub_eq_add_neg, BitVec.add_assoc, BitVec.add_comm (-(BitVec.ofNat 32 m)), ← BitVec.add_assoc]
      rw [this, sub32 (by rw [ofNat32 (by omega), hN]; omega), ofNat32 (by omega), hN]
    refine SimAt.bind (R := fun a b => a = b) (SimAt.same fun _ _ _ => rfl) fun r r' s1 e he => ?_
    subst e
    cases r with
    | true =>
      simp only [if_true]
      refine SimAt.bind (R := fun a b => a = b) (SimAt.same fun _ _ _ => rfl) fun x x' s2 e hx => ?_
      subst e
      have hk := trimBlock_le (c := c) x ((N - 1) % c.dpb + 1)
      generalize hT : trimBlock c x ((N - 1) % c.dpb + 1) = T at *
      split
      · refine SimAt.pure ⟨?_, ?_⟩
        · rw [nxt T (by omega)]
        · omega
      · have hTe : T = (N - 1) % c.dpb + 1 := by omega
        rw [← hTe]
        have hm := nxt T (by omega)
        have := ih (t - BitVec.ofNat 32 T) s2 (Or.inl (by
          rw [hm, hTe, show N - ((N - 1) % c.dpb + 1) = (N - 1) / c.dpb * c.dpb by omega, Nat.mul_mod_left]))
        rw [hm] at this
        unfold SimAt at this ⊢
        rcases h1 : trimLoop c fuel (t - BitVec.ofNat 32 T) s2 with ⟨r1, s3⟩
        rcases h2 : RedFs.trimLoop c fuel (N - T) s2 with ⟨r2, s4⟩
        rw [h1, h2] at this
        cases r1 <;> cases r2 <;> simp_all
        omega
    | false =>
      simp only [Bool.false_eq_true, if_false]
      have hal : N % c.dpb = 0 := by
        rcases hal with h | h
        · exact h
        · rw [he] at h; exact absurd rfl h
      have hge : c.dpb ≤ N := Nat.le_of_dvd (by omega) (Nat.dvd_of_mod_eq_zero hal)
      have hdp : dpb c = BitVec.ofNat 32 c.dpb := by rw [eq_toNat, dpb_toNat hc hp, ofNat32 (by omega)]
      have hm := nxt c.dpb hge
      rw [← hdp] at hm
      have := ih (t - dpb c) s1 (Or.inl (by rw [hm, ← Nat.mod_eq_sub_mod hge]; exact hal))
      rw [hm] at this
      unfold SimAt at this ⊢
      rcases h1 : trimLoop c fuel (t - dpb c) s1 with ⟨r1, s3⟩
      rcases h2 : RedFs.trimLoop c fuel (N - c.dpb) s1 with ⟨r2, s4⟩
      rw [h1, h2] at this
      cases r1 <;> cases r2 <;> simp_all
      omega

end RedFs.Words
