import Verif.Lemmas.WordsDir
set_option linter.unusedSimpArgs false
set_option linter.unusedVariables false
/-!
Whether the loops over the entries of a directory end, for arbitrary contents of the disk.
-/
namespace RedFs.Words
open M Str

variable {c : Conf}

theorem SimAt.eq {α : Type} {m m' : DM α} {s : DS} (h : SimAt (fun a b => a = b) m m' s) : m s = m' s := by
  unfold SimAt at h
  rcases h1 : m s with ⟨r, s1⟩
  rcases h2 : m' s with ⟨r', s2⟩
  rw [h1, h2] at h
  cases r <;> cases r' <;> simp_all

/-! ### The assumption on blocks, for the directories of a well-formed volume -/

theorem step_dir (hc : c.Ok) (hp : c.PosixOk) {v : Vol} {d : ADir} (h : Wf c v) : Step c d.n fun s => s.v = v ∧ MDir c v s.ci d := by
  rintro ⟨ci, v'⟩ b r s' ⟨hv, hd⟩ hb he
  dsimp only at hv hd
  subst hv
  have hdp := dpb_bounds hc hp
  have hmax := hd.ok.max
  have hbb : b < c.dataBlocks := by
    have := blk_max hp (k := b * c.dpb) (by omega)
    rw [Nat.mul_div_cancel _ (by omega)] at this
    exact this
  obtain ⟨ci', e, m, cs, _⟩ := seekRead_file hc h hd.mnt hbb
  rw [show seekAndRead c b ⟨ci, v'⟩ = _ from e] at he
  injection he with h1 h2
  injection h1 with h1
  subst h1 h2
  refine ⟨⟨rfl, hd.ro m cs⟩, fun hz => ?_⟩
  have hz : tree c v' ci.ino (posOf c b) = 0 := by simpa using hz
  by_cases hle : (b + 1) * c.dpb < 4294967296
  · exact hle
  have hdm : c.direntsMax ≤ 4294967295 := Nat.min_le_left _ _
  have hdiv : (d.n - 1) / c.dpb = b := by
    rw [Nat.add_mul, Nat.one_mul] at hle
    have e : d.n - 1 = (d.n - 1 - b * c.dpb) + b * c.dpb := by omega
    rw [e, Nat.add_mul_div_right _ _ (by omega), Nat.div_eq_of_lt (by omega), Nat.zero_add]
  exact absurd (hd.sparse hc hp (show d.n - 1 < d.n by omega) (by rw [hdiv]; exact hz)) (hd.ok.last (by omega))

/-! ### Every block is looked at once -/

/-- Enough blocks are allowed. -/
def Enough (c : Conf) (count f idx : Nat) : Prop := c.dataBlocks + 1 ≤ idx / c.dpb + f ∧ (f = 0 → count ≤ idx)

theorem Enough.next {count f i j : Nat} (hs : i / c.dpb < c.dataBlocks) (h : Enough c count (f + 1) i) (hj : count ≤ j ∨ j = (i / c.dpb + 1) * c.dpb)
    (hp : 0 < c.dpb) : count ≤ j ∨ Enough c count f j := by
  rcases hj with hj | rfl
  · exact Or.inl hj
  · right
    unfold Enough at h ⊢
    rw [Nat.mul_div_cancel _ hp]
    refine ⟨by omega, fun hf => ?_⟩
    omega

theorem lookupLoop_done {count idx free : U32} {name : List Str.Ch} {len f : Nat} {s : DS} (h : count.toNat ≤ idx.toNat) :
    lookupLoop c name len count f idx free s = (.ok (idx, none, free), s) := by
  unfold lookupLoop
  rw [if_pos ((le_toNat _ _).2 h)]; rfl

theorem lookupLoop_ends (hc : c.Ok) (hp : c.PosixOk) (hsm : c.dataBlocks * c.dpb < 4294967296) (name : List Str.Ch) (len : Nat) (count : U32) :
    ∀ f f' (idx free : U32) s, idx.toNat % c.dpb = 0 → Enough c count.toNat f idx.toNat → Enough c count.toNat f' idx.toNat →
      lookupLoop c name len count f idx free s = lookupLoop c name len count f' idx free s ∧
      (lookupLoop c name len count f idx free s).1 ≠ .error .hang := by
  have hd := dpb_bounds hc hp
  intro f
  induction f with
  | zero =>
    intro f' idx free s _ h _
    rw [lookupLoop_done (h.2 rfl), lookupLoop_done (h.2 rfl)]
    exact ⟨rfl, by simp⟩
  | succ f ih =>
    intro f' idx free s hal h h'
    by_cases hdone : count.toNat ≤ idx.toNat
    · rw [lookupLoop_done hdone, lookupLoop_done hdone]
      exact ⟨rfl, by simp⟩
    cases f' with
    | zero => exact absurd (h'.2 rfl) hdone
    | succ f' =>
      have hs1 := dsum hc hp idx.toNat
      unfold lookupLoop
      have hnd : ¬ count ≤ idx := fun x => hdone ((le_toNat _ _).1 x)
      rw [if_neg hnd, if_neg hnd]
      simp only [run_bind]
      rw [blkno hc hp]
      rcases he : seekAndRead c (idx.toNat / c.dpb) s with ⟨r, s1⟩
      cases r with
      | error e =>
        have := (seekAndRead_err (c := c) (idx.toNat / c.dpb) s).1
        rw [he] at this
        exact ⟨rfl, fun hx => this (by simpa using hx)⟩
      | ok r =>
        have hlt := seekAndRead_lt he
        have hblk := Nat.mul_le_mul_right c.dpb (show idx.toNat / c.dpb + 1 ≤ c.dataBlocks from hlt)
        rw [Nat.add_mul, Nat.one_mul] at hblk
        -- the next block, or the end
        have go : ∀ (j : U32) (fr : U32) s2, (count.toNat ≤ j.toNat ∨ j.toNat = (idx.toNat / c.dpb + 1) * c.dpb) →
            lookupLoop c name len count f j fr s2 = lookupLoop c name len count f' j fr s2 ∧
            (lookupLoop c name len count f j fr s2).1 ≠ .error .hang := by
          intro j fr s2 hj
          rcases Enough.next hlt h hj (by omega) with q | q
          · rw [lookupLoop_done q, lookupLoop_done q]; exact ⟨rfl, by simp⟩
          rcases Enough.next hlt h' hj (by omega) with q' | q'
          · rw [lookupLoop_done q', lookupLoop_done q']; exact ⟨rfl, by simp⟩
          by_cases hdn : count.toNat ≤ j.toNat
          · rw [lookupLoop_done hdn, lookupLoop_done hdn]; exact ⟨rfl, by simp⟩
          refine ih f' j fr s2 ?_ q q'
          rcases hj with hj | hj
          · exact absurd hj hdn
          · rw [hj, Nat.mul_mod_left]
        cases r with
        | true =>
          simp only [if_true, run_bind, dataBuf, run_get, run_pure]
          have hlast : (redmin (dpb c) (count - idx)).toNat = min c.dpb (count.toNat - idx.toNat) := by
            rw [redmin_toNat, dpb_toNat hc hp, sub32 (by omega)]
          rcases lookupBlock c (s1.v.blk (s1.ci.pData.getD 0)) name len idx (redmin (dpb c) (count - idx)).toNat 0 free with ⟨o, fr⟩
          cases o with
          | some p => exact ⟨rfl, by simp⟩
          | none =>
            simp only
            refine go _ _ _ ?_
            rw [add32 (by rw [hlast]; have := count.isLt; omega), hlast, Nat.add_mul, Nat.one_mul]
            omega
        | false =>
          simp only [Bool.false_eq_true, if_false]
          refine go _ _ _ ?_
          rw [add32 (by rw [dpb_toNat hc hp]; omega), dpb_toNat hc hp, Nat.add_mul, Nat.one_mul]
          omega

theorem readLoop_done {count idx : U32} {f : Nat} {s : DS} (h : count.toNat ≤ idx.toNat) : readLoop c count f idx s = (.ok none, s) := by
  unfold readLoop
  rw [if_pos ((le_toNat _ _).2 h)]; rfl

theorem readLoop_ends (hc : c.Ok) (hp : c.PosixOk) (hsm : c.dataBlocks * c.dpb < 4294967296) (count : U32) :
    ∀ f f' (idx : U32) s, Enough c count.toNat f idx.toNat → Enough c count.toNat f' idx.toNat →
      readLoop c count f idx s = readLoop c count f' idx s ∧ (readLoop c count f idx s).1 ≠ .error .hang := by
  have hd := dpb_bounds hc hp
  intro f
  induction f with
  | zero =>
    intro f' idx s h _
    rw [readLoop_done (h.2 rfl), readLoop_done (h.2 rfl)]
    exact ⟨rfl, by simp⟩
  | succ f ih =>
    intro f' idx s h h'
    by_cases hdone : count.toNat ≤ idx.toNat
    · rw [readLoop_done hdone, readLoop_done hdone]
      exact ⟨rfl, by simp⟩
    cases f' with
    | zero => exact absurd (h'.2 rfl) hdone
    | succ f' =>
      have hs1 := dsum hc hp idx.toNat
      have hcl := count.isLt
      unfold readLoop
      have hnd : ¬ count ≤ idx := fun x => hdone ((le_toNat _ _).1 x)
      rw [if_neg hnd, if_neg hnd]
      simp only [run_bind]
      rw [blkno hc hp, inblk hc hp]
      rcases he : seekAndRead c (idx.toNat / c.dpb) s with ⟨r, s1⟩
      cases r with
      | error e =>
        have := (seekAndRead_err (c := c) (idx.toNat / c.dpb) s).1
        rw [he] at this
        exact ⟨rfl, fun hx => this (by simpa using hx)⟩
      | ok r =>
        have hlt := seekAndRead_lt he
        have hblk := Nat.mul_le_mul_right c.dpb (show idx.toNat / c.dpb + 1 ≤ c.dataBlocks from hlt)
        rw [Nat.add_mul, Nat.one_mul] at hblk
        have go : ∀ (j : U32) s2, (count.toNat ≤ j.toNat ∨ j.toNat = (idx.toNat / c.dpb + 1) * c.dpb) →
            readLoop c count f j s2 = readLoop c count f' j s2 ∧ (readLoop c count f j s2).1 ≠ .error .hang := by
          intro j s2 hj
          rcases Enough.next hlt h hj (by omega) with q | q
          · rw [readLoop_done q, readLoop_done q]; exact ⟨rfl, by simp⟩
          rcases Enough.next hlt h' hj (by omega) with q' | q'
          · rw [readLoop_done q', readLoop_done q']; exact ⟨rfl, by simp⟩
          exact ih f' j s2 q q'
        cases r with
        | true =>
          simp only [if_true, run_bind, dataBuf, run_get, run_pure]
          have hm : (idx / dpb c * dpb c).toNat = idx.toNat / c.dpb * c.dpb := by
            rw [mul32 (by rw [blkno hc hp, dpb_toNat hc hp]; omega), blkno hc hp, dpb_toNat hc hp]
          have hlast : (redmin (dpb c) (count - idx / dpb c * dpb c)).toNat = min c.dpb (count.toNat - idx.toNat / c.dpb * c.dpb) := by
            rw [redmin_toNat, dpb_toNat hc hp, sub32 (by rw [hm]; omega), hm]
          rw [hlast]
          generalize hL : min c.dpb (count.toNat - idx.toNat / c.dpb * c.dpb) = L
          rcases readBlock c (s1.v.blk (s1.ci.pData.getD 0)) (L - idx.toNat % c.dpb) (idx.toNat % c.dpb) with _ | k
          · simp only
            refine go _ _ ?_
            rw [ofNat_add (by omega), Nat.add_mul, Nat.one_mul]
            omega
          · exact ⟨rfl, by simp⟩
        | false =>
          simp only [Bool.false_eq_true, if_false]
          refine go _ _ (Or.inr ?_)
          have hsub : (dpb c - idx % dpb c).toNat = c.dpb - idx.toNat % c.dpb := by
            rw [sub32 (by rw [inblk hc hp, dpb_toNat hc hp]; omega), inblk hc hp, dpb_toNat hc hp]
          rw [add32 (by rw [hsub]; omega), hsub, Nat.add_mul, Nat.one_mul]
          omega

theorem sub_wrap {t m : U32} (h : t.toNat < m.toNat) : (t - m).toNat + m.toNat = 4294967296 + t.toNat := by
  have h1 := t.isLt
  have h2 := m.isLt
  have h3 := BitVec.toNat_sub_of_lt (x := t) (y := m) (BitVec.lt_def.2 h)
  omega

def trimStep (c : Conf) (f : Nat) (t : U32) (s : DS) (x : Blk) (k : Nat) : Except Err U32 × DS :=
  if trimBlock c x k < k then (.ok (t - BitVec.ofNat 32 (trimBlock c x k)), s) else trimLoop c f (t - BitVec.ofNat 32 (trimBlock c x k)) s

def trimNext (c : Conf) (f : Nat) (t : U32) (s1 : DS) : Except Err Bool → Except Err U32 × DS
  | .error e => (.error e, s1)
  | .ok true => trimStep c f t s1 (s1.v.blk (s1.ci.pData.getD 0)) ((t % dpb c).toNat + 1)
  | .ok false => trimLoop c f (t - dpb c) s1

theorem trimLoop_step {f : Nat} {t : U32} {s s1 : DS} {r : Except Err Bool} (h0 : t ≠ 0xFFFFFFFF#32) (he : seekAndRead c (t / dpb c).toNat s = (r, s1)) :
    trimLoop c (f + 1) t s = trimNext c f t s1 r := by
  conv => lhs; unfold trimLoop
  rw [if_neg h0]
  have kb : ∀ {α : Type} (m : DM α) (K : α → DM U32), (m >>= K) s = match m s with | (.ok a, s') => K a s' | (.error e, s') => (.error e, s') :=
    fun m K => by rw [run_bind]; rcases m s with ⟨r, s'⟩; cases r <;> rfl
  have kd : ∀ K : Blk → DM U32, (dataBuf >>= K) s1 = K (s1.v.blk (s1.ci.pData.getD 0)) s1 := fun K => rfl
  dsimp only
  rw [kb, he]
  cases r with
  | error e => rfl
  | ok r =>
    cases r with
    | false => dsimp only [trimNext]; rw [if_neg (by decide)]
    | true =>
      dsimp only [trimNext]
      rw [if_pos rfl, kd]
      unfold trimStep
      split
      · exact run_pure _ _
      · rfl

theorem trimLoop_ends (hc : c.Ok) (hp : c.PosixOk) (hsm : (c.dataBlocks + 1) * c.dpb ≤ 4294967296) :
    ∀ f (t : U32) s, (t = 0xFFFFFFFF#32 ∨ c.dataBlocks ≤ t.toNat / c.dpb ∧ 0 < f ∨ t.toNat / c.dpb + 2 ≤ f) → (trimLoop c f t s).1 ≠ .error .hang := by
  have hd := dpb_bounds hc hp
  intro f
  induction f with
  | zero =>
    intro t s h
    unfold trimLoop
    rw [if_pos (by rcases h with h | h | h <;> [exact h; exact absurd h.2 (Nat.lt_irrefl 0); exact absurd h (Nat.not_succ_le_zero _)])]
    simp
  | succ f ih =>
    intro t s h
    by_cases h0 : t = 0xFFFFFFFF#32
    · unfold trimLoop; rw [if_pos h0]; simp
    have hs1 := dsum hc hp t.toNat
    have htl := t.isLt
    rcases he : seekAndRead c (t.toNat / c.dpb) s with ⟨r, s1⟩
    have he' := he
    rw [← blkno hc hp] at he'
    rw [trimLoop_step h0 he']
    cases r with
    | error e =>
      have := (seekAndRead_err (c := c) (t.toNat / c.dpb) s).1
      rw [he] at this
      exact fun hx => this (by simp only [trimNext] at hx; injection hx with hx; rw [hx])
    | ok r =>
      have hlt := seekAndRead_lt he
      have hf : t.toNat / c.dpb + 2 ≤ f + 1 := by rcases h with h | h | h <;> [exact absurd h h0; omega; exact h]
      rw [Nat.add_mul, Nat.one_mul] at hsm
      -- where the counter goes
      have go : ∀ m : Nat, t.toNat % c.dpb < m → m ≤ c.dpb → ∀ s2, (trimLoop c f (t - BitVec.ofNat 32 m) s2).1 ≠ .error .hang := by
        intro m h1 h2 s2
        have hm : (BitVec.ofNat 32 m).toNat = m := ofNat32 (by omega)
        refine ih _ _ ?_
        by_cases hle : m ≤ t.toNat
        · right; right
          rw [sub32 (by rw [hm]; exact hle), hm]
          have hq : 0 < t.toNat / c.dpb := by
            rcases Nat.eq_zero_or_pos (t.toNat / c.dpb) with h | h
            · rw [h, Nat.zero_mul] at hs1; omega
            · exact h
          have : (t.toNat - m) / c.dpb < t.toNat / c.dpb := by
            rw [Nat.div_lt_iff_lt_mul (by omega)]; omega
          omega
        · right; left
          refine ⟨?_, by have := Nat.le_trans (Nat.le_add_left 2 _) hf; omega⟩
          have hw := sub_wrap (t := t) (m := BitVec.ofNat 32 m) (by rw [hm]; omega)
          rw [hm] at hw
          exact (Nat.le_div_iff_mul_le (by omega)).2 (by omega)
      cases r with
      | true =>
        have hk := trimBlock_le (c := c) (s1.v.blk (s1.ci.pData.getD 0)) (t.toNat % c.dpb + 1)
        dsimp only [trimNext]
        unfold trimStep
        rw [inblk hc hp]
        generalize trimBlock c (s1.v.blk (s1.ci.pData.getD 0)) (t.toNat % c.dpb + 1) = T at hk ⊢
        by_cases hlt2 : T < t.toNat % c.dpb + 1
        · rw [if_pos hlt2]; exact fun h => by cases h
        · rw [if_neg hlt2]
          exact go T (Nat.lt_of_lt_of_le (Nat.lt_succ_self _) (Nat.le_of_not_lt hlt2)) (Nat.le_trans hk hs1.2) _
      | false =>
        have hdp : dpb c = BitVec.ofNat 32 c.dpb := by rw [eq_toNat, dpb_toNat hc hp, ofNat32 (by omega)]
        dsimp only [trimNext]
        rw [hdp]
        exact go _ hs1.2 (Nat.le_refl _) _

/-! ### Directories without any block -/

/-- An inode none of whose block pointers is set. -/
structure Absent (s : DS) : Prop where
  nb : s.ci.nodeBuf ≠ none
  ptrs : ∀ i, s.ci.node.entries i = 0
  dindir : s.ci.dindirBlk = 0
  indir : s.ci.indirBlk = 0
  data : s.ci.dataBlk = 0

theorem Absent.seek {s : DS} (h : Absent s) {b : Nat} (hb : b < c.dataBlocks) : ∃ s', seekAndRead c b s = (.ok false, s') ∧ Absent s' := by
  have h1 : ∃ s1, RedFs.seekCoord c b s = (.ok (), s1) ∧ Absent s1 := by
    unfold RedFs.seekCoord
    simp only [run_bind, run_get]
    rw [if_neg (by rintro (x | x); exact h.nb x; omega)]
    split
    · refine ⟨_, rfl, ?_⟩
      unfold seekCi
      simp only
      split
      · exact ⟨h.nb, h.ptrs, h.dindir, h.indir, h.ptrs _⟩
      · split <;> split <;> (try split) <;> (try split) <;>
          exact ⟨h.nb, h.ptrs, by first | exact h.dindir | exact h.ptrs _, by first | exact h.indir | exact h.ptrs _, h.data⟩
    · exact ⟨s, rfl, h⟩
  obtain ⟨s1, e1, a1⟩ := h1
  have h2 : ∃ s2, seekDindir s1 = (.ok (), s2) ∧ Absent s2 := by
    unfold seekDindir
    simp only [run_bind, run_get]
    cases s1.ci.dindirEntry with
    | none => exact ⟨s1, rfl, a1⟩
    | some d =>
      simp only
      rw [if_pos a1.dindir]
      exact ⟨_, rfl, a1.nb, a1.ptrs, a1.dindir, rfl, a1.data⟩
  obtain ⟨s2, e2, a2⟩ := h2
  have h3 : ∃ s3, seekIndir s2 = (.ok (), s3) ∧ Absent s3 := by
    unfold seekIndir
    simp only [run_bind, run_get]
    cases s2.ci.indirEntry with
    | none => exact ⟨s2, rfl, a2⟩
    | some d =>
      simp only
      rw [if_pos a2.indir]
      exact ⟨_, rfl, a2.nb, a2.ptrs, a2.dindir, a2.indir, rfl⟩
  obtain ⟨s3, e3, a3⟩ := h3
  refine ⟨s3, ?_, a3⟩
  unfold seekAndRead seekData seekInode
  simp only [run_bind, run_attempt, run_get]
  rw [if_neg (by rintro (x | x); exact h.nb x; omega)]
  simp only [run_bind, e1, e2, e3, run_get]
  rw [if_pos a3.data]
  rfl

theorem readLoop_hangs (hc : c.Ok) (hp : c.PosixOk) (hdv : c.dpb ∣ 4294967296) (hsz : 4294967296 ≤ c.dataBlocks * c.dpb)
    {count : U32} (hcount : 4294967296 < count.toNat + c.dpb) : ∀ f (idx : U32) s, Absent s → idx.toNat % c.dpb = 0 →
      (readLoop c count f idx s).1 = .error .hang := by
  have hd := dpb_bounds hc hp
  intro f
  induction f with
  | zero =>
    intro idx s h hal
    have hlt : idx.toNat < count.toNat := by
      have := idx.isLt
      obtain ⟨q, hq⟩ := Nat.dvd_of_mod_eq_zero hal
      obtain ⟨p, hp'⟩ := hdv
      have : q < p := by
        rcases Nat.lt_or_ge q p with h | h
        · exact h
        · have := Nat.mul_le_mul_left c.dpb h; omega
      have := Nat.mul_le_mul_left c.dpb (show q + 1 ≤ p from this)
      rw [Nat.mul_add, Nat.mul_one] at this
      omega
    unfold readLoop
    rw [if_neg (fun x => by rw [le_toNat] at x; omega)]
    rfl
  | succ f ih =>
    intro idx s h hal
    have hil := idx.isLt
    have hs1 := dsum hc hp idx.toNat
    have hnx : idx.toNat + c.dpb ≤ 4294967296 := by
      obtain ⟨q, hq⟩ := Nat.dvd_of_mod_eq_zero hal
      obtain ⟨p, hp'⟩ := hdv
      have : q < p := by
        rcases Nat.lt_or_ge q p with h | h
        · exact h
        · have := Nat.mul_le_mul_left c.dpb h; omega
      have := Nat.mul_le_mul_left c.dpb (show q + 1 ≤ p from this)
      rw [Nat.mul_add, Nat.mul_one] at this
      omega
    have hb : idx.toNat / c.dpb < c.dataBlocks := (Nat.div_lt_iff_lt_mul (by omega)).2 (by omega)
    unfold readLoop
    rw [if_neg (fun x => by rw [le_toNat] at x; omega)]
    simp only [run_bind]
    rw [blkno hc hp, inblk hc hp]
    obtain ⟨s', e, a⟩ := h.seek hb
    rw [e]
    simp only [Bool.false_eq_true, if_false]
    refine ih _ _ a ?_
    have hz : idx % dpb c = 0 := by rw [eq_toNat, inblk hc hp, hal]; rfl
    rw [hz, show dpb c - 0 = dpb c from BitVec.sub_zero _, BitVec.toNat_add, dpb_toNat hc hp, Nat.mod_mod_of_dvd _ (by exact hdv), Nat.add_mod_right, hal]

theorem lookupLoop_hangs (hc : c.Ok) (hp : c.PosixOk) (hdv : c.dpb ∣ 4294967296) (hsz : 4294967296 ≤ c.dataBlocks * c.dpb)
    {count : U32} (hcount : 4294967296 < count.toNat + c.dpb) (name : List Str.Ch) (len : Nat) : ∀ f (idx free : U32) s, Absent s → idx.toNat % c.dpb = 0 →
      (lookupLoop c name len count f idx free s).1 = .error .hang := by
  have hd := dpb_bounds hc hp
  have hnx : ∀ idx : U32, idx.toNat % c.dpb = 0 → idx.toNat + c.dpb ≤ 4294967296 := by
    intro idx hal
    have hil := idx.isLt
    obtain ⟨q, hq⟩ := Nat.dvd_of_mod_eq_zero hal
    obtain ⟨p, hp'⟩ := hdv
    have : q < p := by
      rcases Nat.lt_or_ge q p with h | h
      · exact h
      · have := Nat.mul_le_mul_left c.dpb h; omega
    have := Nat.mul_le_mul_left c.dpb (show q + 1 ≤ p from this)
    rw [Nat.mul_add, Nat.mul_one] at this
    omega
  intro f
  induction f with
  | zero =>
    intro idx free s h hal
    have := hnx idx hal
    unfold lookupLoop
    rw [if_neg (fun x => by rw [le_toNat] at x; omega)]
    rfl
  | succ f ih =>
    intro idx free s h hal
    have := hnx idx hal
    have hb : idx.toNat / c.dpb < c.dataBlocks := (Nat.div_lt_iff_lt_mul (by omega)).2 (by omega)
    unfold lookupLoop
    rw [if_neg (fun x => by rw [le_toNat] at x; omega)]
    simp only [run_bind]
    rw [blkno hc hp]
    obtain ⟨s', e, a⟩ := h.seek hb
    rw [e]
    simp only [Bool.false_eq_true, if_false]
    refine ih _ _ _ a ?_
    rw [BitVec.toNat_add, dpb_toNat hc hp, Nat.mod_mod_of_dvd _ (by exact hdv), Nat.add_mod_right, hal]

/-- In a directory without blocks the counter runs past the end. -/
theorem lookupLoop_past (hc : c.Ok) (hp : c.PosixOk) {count : U32} (hsz : count.toNat ≤ c.dataBlocks * c.dpb) (hno : count.toNat + c.dpb ≤ 4294967296)
    (hun : count.toNat % c.dpb ≠ 0) (name : List Str.Ch) (len : Nat) : ∀ f (idx free : U32) s, Absent s → idx.toNat % c.dpb = 0 →
      count.toNat ≤ idx.toNat + f → idx.toNat < count.toNat + c.dpb →
      ∃ i fr s', lookupLoop c name len count f idx free s = (.ok (i, none, fr), s') ∧ count.toNat < i.toNat := by
  have hd := dpb_bounds hc hp
  intro f
  induction f with
  | zero =>
    intro idx free s h hal hf _
    refine ⟨idx, free, s, lookupLoop_done (by omega), ?_⟩
    rcases Nat.lt_or_ge count.toNat idx.toNat with h | h
    · exact h
    · have : count.toNat = idx.toNat := by omega
      rw [this] at hun; exact absurd hal hun
  | succ f ih =>
    intro idx free s h hal hf hlt
    by_cases hdone : count.toNat ≤ idx.toNat
    · refine ⟨idx, free, s, lookupLoop_done hdone, ?_⟩
      rcases Nat.lt_or_ge count.toNat idx.toNat with h | h
      · exact h
      · have : count.toNat = idx.toNat := by omega
        rw [this] at hun; exact absurd hal hun
    have hb : idx.toNat / c.dpb < c.dataBlocks := (Nat.div_lt_iff_lt_mul (by omega)).2 (by omega)
    unfold lookupLoop
    rw [if_neg (fun x => by rw [le_toNat] at x; omega)]
    simp only [run_bind]
    rw [blkno hc hp]
    obtain ⟨s', e, a⟩ := h.seek hb
    rw [e]
    simp only [Bool.false_eq_true, if_false]
    have hn : (idx + dpb c).toNat = idx.toNat + c.dpb := by rw [add32 (by rw [dpb_toNat hc hp]; omega), dpb_toNat hc hp]
    exact ih _ _ _ a (by rw [hn, Nat.add_mod_right]; exact hal) (by rw [hn]; omega) (by rw [hn]; omega)

end RedFs.Words
