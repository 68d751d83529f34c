import Verif.Spec.Dir
import Verif.Lemmas.Str
import Mathlib.Tactic.Ring
set_option linter.unusedSimpArgs false
set_option linter.unusedVariables false
set_option linter.unusedSectionVars false
namespace RedFs
open Str

variable {c : Conf}

section geo
variable (hp : c.PosixOk)
include hp

theorem ds_ge : 5 ≤ c.ds := by have := hp.name; unfold Conf.ds; omega
theorem ds_name : 4 + c.nameMax ≤ c.ds := by unfold Conf.ds; omega
theorem dpb_pos : 1 ≤ c.dpb := by
  unfold Conf.dpb; have := ds_ge hp; have := hp.fits
  exact (Nat.one_le_div_iff (by omega)).2 (by omega)
theorem ds_dpb : c.dpb * c.ds ≤ c.blockSize := Nat.div_mul_le_self _ _
theorem dbs_pos : 0 < c.blockSize := by have := hp.fits; omega

/-- Position of an entry in its block. -/
theorem idx_in (k : Nat) : k % c.dpb * c.ds + c.ds ≤ c.blockSize := by
  have h1 := Nat.mod_lt k (dpb_pos hp)
  have h2 : (k % c.dpb + 1) * c.ds ≤ c.dpb * c.ds := Nat.mul_le_mul_right _ h1
  have h3 := ds_dpb hp
  rw [Nat.add_mul] at h2; omega

theorem off_div {k j : Nat} (hj : j < c.ds) : (c.idxOff k + j) / c.blockSize = k / c.dpb := by
  have := idx_in hp k
  have hb := dbs_pos hp
  unfold Conf.idxOff
  rw [Nat.add_assoc, Nat.mul_comm (k / c.dpb), Nat.mul_add_div hb, Nat.div_eq_of_lt (show k % c.dpb * c.ds + j < c.blockSize by omega)]; omega

theorem off_mod {k j : Nat} (hj : j < c.ds) : (c.idxOff k + j) % c.blockSize = k % c.dpb * c.ds + j := by
  have := idx_in hp k
  unfold Conf.idxOff
  rw [Nat.add_assoc, Nat.mul_comm (k / c.dpb), Nat.mul_add_mod, Nat.mod_eq_of_lt (by omega)]

theorem off_slot {k j : Nat} (hj : j < c.ds) :
    (c.idxOff k + j) / c.blockSize * c.dpb + (c.idxOff k + j) % c.blockSize / c.ds = k ∧ (c.idxOff k + j) % c.blockSize / c.ds < c.dpb ∧
    (c.idxOff k + j) % c.blockSize % c.ds = j := by
  have hd := ds_ge hp
  rw [off_div hp hj, off_mod hp hj]
  have h1 : (k % c.dpb * c.ds + j) / c.ds = k % c.dpb := by
    rw [Nat.mul_comm, Nat.mul_add_div (by omega), Nat.div_eq_of_lt hj]; omega
  have h2 : (k % c.dpb * c.ds + j) % c.ds = j := by
    rw [Nat.mul_comm, Nat.mul_add_mod, Nat.mod_eq_of_lt hj]
  rw [h1, h2]
  exact ⟨by rw [Nat.mul_comm]; exact Nat.div_add_mod _ _, Nat.mod_lt _ (dpb_pos hp), rfl⟩

/-- Every offset in the part of a block that holds entries belongs to one entry. -/
theorem off_ent {off : Nat} (h : off % c.blockSize / c.ds < c.dpb) :
    off = c.idxOff (off / c.blockSize * c.dpb + off % c.blockSize / c.ds) + off % c.blockSize % c.ds ∧ off % c.blockSize % c.ds < c.ds := by
  have hd := ds_ge hp
  have hdp := dpb_pos hp
  refine ⟨?_, Nat.mod_lt _ (by omega)⟩
  unfold Conf.idxOff
  rw [Nat.mul_comm (off / c.blockSize) c.dpb, Nat.mul_add_div hdp, Nat.mul_add_mod, Nat.mod_eq_of_lt h, Nat.div_eq_of_lt h, Nat.add_zero,
    Nat.add_assoc, Nat.mul_comm (_ / c.ds) c.ds, Nat.div_add_mod, Nat.mul_comm, Nat.div_add_mod]

theorem dirByte_ent (d : ADir) {k j : Nat} (hj : j < c.ds) : dirByte c d (c.idxOff k + j) = encEnt (d.slot k) j := by
  obtain ⟨h1, h2, h3⟩ := off_slot hp (k := k) hj
  unfold dirByte
  rw [if_pos h2, h1, h3]

/-- Two functions of this form agree if they agree on the entries. -/
theorem dirByte_cases (off : Nat) : (∃ k j, j < c.ds ∧ off = c.idxOff k + j) ∨ (∀ d, dirByte c d off = 0) ∧ ∀ k, ¬ (c.idxOff k ≤ off ∧ off < c.idxOff k + c.ds) := by
  by_cases h : off % c.blockSize / c.ds < c.dpb
  · obtain ⟨h1, h2⟩ := off_ent hp h
    exact Or.inl ⟨_, _, h2, h1⟩
  · right
    refine ⟨fun d => by unfold dirByte; rw [if_neg h], fun k hk => h ?_⟩
    obtain ⟨j, rfl⟩ := Nat.exists_eq_add_of_le hk.1
    exact (off_slot hp (by omega)).2.1

theorem idxOff_succ (k : Nat) : c.idxOff k + c.ds ≤ c.idxOff (k + 1) := by
  have hdp := dpb_pos hp
  have hb := ds_dpb hp
  unfold Conf.idxOff
  by_cases h : (k + 1) % c.dpb = 0
  · have h1 : k % c.dpb = c.dpb - 1 := by
      by_contra hne
      have h3 : k % c.dpb + 1 < c.dpb := by have := Nat.mod_lt k hdp; omega
      have h4 : (k + 1) % c.dpb = k % c.dpb + 1 := by
        rw [Nat.add_mod, Nat.mod_eq_of_lt (show 1 < c.dpb by omega), Nat.mod_eq_of_lt h3]
      omega
    have h2 : (k + 1) / c.dpb = k / c.dpb + 1 := by
      have e1 := Nat.div_add_mod (k + 1) c.dpb
      have e2 := Nat.div_add_mod k c.dpb
      rw [h] at e1; rw [h1] at e2
      have : c.dpb * ((k + 1) / c.dpb) = c.dpb * (k / c.dpb + 1) := by rw [Nat.mul_add]; omega
      exact Nat.eq_of_mul_eq_mul_left hdp this
    rw [h, h2, Nat.zero_mul, Nat.add_mul, h1, Nat.one_mul, Nat.add_zero]
    have : (c.dpb - 1) * c.ds + c.ds = c.dpb * c.ds := by
      obtain ⟨m, hm⟩ := Nat.exists_eq_add_of_le hdp
      rw [hm, show 1 + m - 1 = m by omega]; ring
    omega
  · have h3 : k % c.dpb + 1 < c.dpb := by
      by_contra hh
      have := Nat.mod_lt k hdp
      apply h
      have : k % c.dpb = c.dpb - 1 := by omega
      rw [Nat.add_mod, this]
      by_cases h1 : c.dpb = 1
      · rw [h1]
      · rw [Nat.mod_eq_of_lt (show 1 < c.dpb by omega), show c.dpb - 1 + 1 = c.dpb by omega, Nat.mod_self]
    have h4 : (k + 1) % c.dpb = k % c.dpb + 1 := by
      rw [Nat.add_mod, Nat.mod_eq_of_lt (show 1 < c.dpb by omega), Nat.mod_eq_of_lt h3]
    have h5 : (k + 1) / c.dpb = k / c.dpb := by
      have e1 := Nat.div_add_mod (k + 1) c.dpb
      have e2 := Nat.div_add_mod k c.dpb
      rw [h4] at e1
      exact Nat.eq_of_mul_eq_mul_left hdp (by omega)
    rw [h4, h5, Nat.add_mul]; omega

theorem idxOff_lt {k k' : Nat} (h : k < k') : c.idxOff k + c.ds ≤ c.idxOff k' := by
  induction k' with
  | zero => omega
  | succ n ih =>
    by_cases hk : k = n
    · rw [hk]; exact idxOff_succ hp n
    · have := ih (by omega); have := idxOff_succ hp n; omega

theorem idxOff_inj {k k' j j' : Nat} (hj : j < c.ds) (hj' : j' < c.ds) (h : c.idxOff k + j = c.idxOff k' + j') : k = k' ∧ j = j' := by
  rcases Nat.lt_trichotomy k k' with hk | hk | hk
  · have := idxOff_lt hp hk; omega
  · subst hk; exact ⟨rfl, by omega⟩
  · have := idxOff_lt hp hk; omega

theorem dirSize_le {n k : Nat} : c.idxOff k + c.ds ≤ dirSize c n ↔ k < n := by
  have hd := ds_ge hp
  unfold dirSize
  split
  · constructor <;> intro <;> omega
  · constructor
    · intro h
      by_contra hk
      have := idxOff_lt hp (show n - 1 < k by omega); omega
    · intro h
      rcases Nat.lt_or_ge k (n - 1) with hk | hk
      · have := idxOff_lt hp hk; omega
      · rw [show k = n - 1 by omega]

theorem dirSize_gt {n k j : Nat} (hj : j < c.ds) : c.idxOff k + j < dirSize c n ↔ k < n := by
  constructor
  · intro h
    unfold dirSize at h
    split at h
    · omega
    · by_contra hk
      have := idxOff_lt hp (show n - 1 < k by omega); omega
  · intro h; have := (dirSize_le hp (n := n) (k := k)).2 h; omega

theorem dirSize_mono {m n : Nat} (h : m ≤ n) : dirSize c m ≤ dirSize c n := by
  by_cases hm : m = 0
  · unfold dirSize; rw [if_pos hm]; omega
  · have := (dirSize_le hp (n := n) (k := m - 1)).2 (by omega)
    conv_lhs => unfold dirSize
    rw [if_neg hm]; exact this

theorem dirSize_succ (k : Nat) : dirSize c (k + 1) = c.idxOff k + c.ds := by unfold dirSize; rw [if_neg (by omega)]; rfl

theorem dirSize_max (n k : Nat) : max (dirSize c n) (c.idxOff k + c.ds) = dirSize c (max n (k + 1)) := by
  rw [← dirSize_succ hp]
  rcases Nat.le_total n (k + 1) with h | h
  · have := dirSize_mono hp h; rw [Nat.max_eq_right h, Nat.max_eq_right this]
  · have := dirSize_mono hp h; rw [Nat.max_eq_left h, Nat.max_eq_left this]

theorem offIdx_dirSize (n : Nat) : c.offIdx (dirSize c n) = n := by
  have hdp := dpb_pos hp
  have hd := ds_ge hp
  have hb := dbs_pos hp
  unfold dirSize
  split
  · next h => subst h; unfold Conf.offIdx; simp
  · next h =>
    unfold Conf.offIdx Conf.idxOff
    have hin := idx_in hp (n - 1)
    have e2 := Nat.div_add_mod (n - 1) c.dpb
    rw [Nat.mul_comm] at e2
    by_cases hfull : (n - 1) % c.dpb * c.ds + c.ds = c.blockSize
    · rw [Nat.add_assoc, hfull]
      have h1 : (n - 1) / c.dpb * c.blockSize + c.blockSize = c.blockSize * ((n - 1) / c.dpb + 1) := by ring
      rw [h1, Nat.mul_div_cancel_left _ hb, Nat.mul_mod_right, Nat.zero_div, Nat.add_zero]
      have h2 : (n - 1) % c.dpb + 1 = c.dpb := by
        have h3 : c.dpb = c.blockSize / c.ds := rfl
        have h4 : c.blockSize / c.ds = (n - 1) % c.dpb + 1 := by
          rw [← hfull, show (n - 1) % c.dpb * c.ds + c.ds = c.ds * ((n - 1) % c.dpb + 1) by ring, Nat.mul_div_cancel_left _ (by omega)]
        omega
      rw [Nat.add_mul]; omega
    · rw [Nat.add_assoc, Nat.mul_comm ((n - 1) / c.dpb) c.blockSize, Nat.mul_add_div hb, Nat.mul_add_mod,
        Nat.div_eq_of_lt (show (n - 1) % c.dpb * c.ds + c.ds < c.blockSize by omega), Nat.mod_eq_of_lt (show (n - 1) % c.dpb * c.ds + c.ds < c.blockSize by omega),
        show (n - 1) % c.dpb * c.ds + c.ds = c.ds * ((n - 1) % c.dpb + 1) by ring, Nat.mul_div_cancel_left _ (by omega), Nat.add_zero]
      omega

theorem trimSize_eq (n : Nat) : trimSize c n = dirSize c n := by
  have hdp := dpb_pos hp
  have hd := ds_ge hp
  have hb := dbs_pos hp
  unfold trimSize
  by_cases h0 : n = 0
  · subst h0
    have : c.idxOff 0 = 0 := by unfold Conf.idxOff; simp
    rw [this, if_neg (by omega)]; rfl
  have hu : c.dirUnused = c.blockSize - c.dpb * c.ds := by unfold Conf.dirUnused; rw [Nat.mul_comm]
  have hle := ds_dpb hp
  by_cases hm : n % c.dpb = 0
  · have e1 := Nat.div_add_mod n c.dpb
    rw [hm, Nat.add_zero] at e1
    obtain ⟨q, hq⟩ : ∃ q, n / c.dpb = q + 1 := by
      refine ⟨n / c.dpb - 1, ?_⟩
      have : n / c.dpb ≠ 0 := by intro h; rw [h] at e1; omega
      generalize n / c.dpb = q at this; omega
    have hoff : c.idxOff n = q * c.blockSize + c.blockSize := by unfold Conf.idxOff; rw [hm, hq]; ring
    have hn : n - 1 = c.dpb * q + (c.dpb - 1) := by
      rw [hq, Nat.mul_add] at e1; omega
    have hs : dirSize c n = q * c.blockSize + c.dpb * c.ds := by
      unfold dirSize; rw [if_neg h0]
      unfold Conf.idxOff
      rw [hn, Nat.mul_add_div hdp, Nat.mul_add_mod, Nat.div_eq_of_lt (by omega), Nat.mod_eq_of_lt (by omega), Nat.add_zero, Nat.add_assoc]
      congr 1
      obtain ⟨m, hm⟩ := Nat.exists_eq_add_of_le hdp
      rw [hm, show 1 + m - 1 = m by omega]; ring
    by_cases hun : 0 < c.dirUnused
    · rw [if_pos ⟨hun, by omega, by rw [hoff, show q * c.blockSize + c.blockSize = c.blockSize * (q + 1) by ring]; exact Nat.mul_mod_right _ _⟩]
      rw [hoff, hs, hu]; omega
    · rw [if_neg (fun h => hun h.1), hoff, hs]
      have : c.blockSize = c.dpb * c.ds := by omega
      omega
  · have hlt := Nat.mod_lt n hdp
    have hin := idx_in hp n
    have hal : c.idxOff n % c.blockSize ≠ 0 := by
      have := off_mod hp (k := n) (j := 0) (by omega)
      rw [Nat.add_zero, Nat.add_zero] at this
      rw [this]
      exact Nat.mul_ne_zero hm (by omega)
    rw [if_neg (fun h => hal h.2.2)]
    unfold dirSize; rw [if_neg h0]
    -- previous entry in the same block
    have h4 : (n - 1) % c.dpb + 1 = n % c.dpb := by
      have e : n - 1 = c.dpb * (n / c.dpb) + (n % c.dpb - 1) := by have := Nat.div_add_mod n c.dpb; omega
      rw [e, Nat.mul_add_mod, Nat.mod_eq_of_lt (by omega)]; omega
    have h5 : (n - 1) / c.dpb = n / c.dpb := by
      have e : n - 1 = c.dpb * (n / c.dpb) + (n % c.dpb - 1) := by have := Nat.div_add_mod n c.dpb; omega
      conv_lhs => rw [e]
      rw [Nat.mul_add_div hdp, Nat.div_eq_of_lt (show n % c.dpb - 1 < c.dpb by omega), Nat.add_zero]
    unfold Conf.idxOff
    rw [h5, ← h4]; ring

theorem idxOff_max {k : Nat} (h : k < c.direntsMax) : c.idxOff k + c.ds ≤ c.sizeMax := by
  have hin := idx_in hp k
  have h1 : k < c.dataBlocks * c.dpb := by unfold Conf.direntsMax at h; omega
  have h2 : k / c.dpb < c.dataBlocks := Nat.div_lt_of_lt_mul (by rw [Nat.mul_comm]; exact h1)
  have h3 : (k / c.dpb + 1) * c.blockSize ≤ c.dataBlocks * c.blockSize := Nat.mul_le_mul_right _ h2
  unfold Conf.sizeMax Conf.idxOff
  rw [Nat.mul_comm c.blockSize]
  rw [Nat.add_mul] at h3; omega

theorem blk_max {k : Nat} (h : k < c.direntsMax) : k / c.dpb < c.dataBlocks := by
  have h1 : k < c.dataBlocks * c.dpb := by unfold Conf.direntsMax at h; omega
  exact Nat.div_lt_of_lt_mul (by rw [Nat.mul_comm]; exact h1)
end geo

/-! ### Encoding -/

theorem leByte_toNat (n j : Nat) : (leByte n j).toNat = n / 256 ^ j % 256 := by unfold leByte; simp

theorem le32_leByte {n : Nat} (h : n < 4294967296) : le32 (leByte n) = n := by
  unfold le32
  simp only [leByte_toNat]
  simp only [show (256 : Nat) ^ 0 = 1 from rfl, show (256 : Nat) ^ 1 = 256 from rfl, show (256 : Nat) ^ 2 = 65536 from rfl, show (256 : Nat) ^ 3 = 16777216 from rfl]
  omega

theorem le32_congr {f g : Nat → Byte} (h : ∀ j, j < 4 → f j = g j) : le32 f = le32 g := by
  unfold le32; rw [h 0 (by omega), h 1 (by omega), h 2 (by omega), h 3 (by omega)]

theorem le32_zero : le32 (fun _ => (0 : Byte)) = 0 := rfl

/-- The inode number of an entry, 0 if it is free. -/
def entIno : Option (Nat × List Byte) → Nat
  | some (i, _) => i
  | none => 0

/-- Reading back the inode number. -/
theorem encEnt_ino {e : Option (Nat × List Byte)} (h : ∀ i s, e = some (i, s) → i < 4294967296) :
    le32 (encEnt e) = entIno e := by
  rcases e with _ | ⟨i, s⟩
  · rfl
  · show le32 (encEnt (some (i, s))) = i
    rw [le32_congr (g := leByte i) (fun j hj => by show (if j < 4 then _ else _) = _; rw [if_pos hj])]
    exact le32_leByte (h i s rfl)

theorem encEnt_name {i : Nat} {s : List Byte} {n : Nat} (hn : s.length ≤ n) :
    ((List.range n).map fun j => encEnt (some (i, s)) (4 + j)) = s ++ List.replicate (n - s.length) 0#8 := by
  apply List.ext_getElem
  · simp; omega
  · intro k h1 h2
    simp only [List.getElem_map, List.getElem_range]
    show (if 4 + k < 4 then _ else cget s (4 + k - 4)) = _
    unfold cget
    rw [if_neg (by omega), show 4 + k - 4 = k by omega, List.getElem_append]
    split
    · next hk => simp [List.getD, hk]
    · next hk => simp [List.getD, List.getElem?_eq_none (show s.length ≤ k by omega)]

theorem takeWhile_pad {s : List Byte} (h : ∀ b ∈ s, b ≠ 0#8) (n : Nat) : (s ++ List.replicate n 0#8).takeWhile (· ≠ 0#8) = s := by
  rw [List.takeWhile_append_of_pos (by intro a ha; simpa using h a ha)]
  have : (List.replicate n 0#8).takeWhile (fun x : Byte => decide (x ≠ 0#8)) = [] := by
    cases n <;> simp [List.replicate_succ]
  rw [this, List.append_nil]

theorem encEnt_decode {i : Nat} {s : List Byte} (h : NameOk c s) :
    ((List.range c.nameMax).map fun j => encEnt (some (i, s)) (4 + j)).takeWhile (· ≠ 0#8) = s := by
  rw [encEnt_name h.max, takeWhile_pad h.nul]

/-! ### The directory held by a file -/

theorem inode_small (hc : c.Ok) {i : Nat} (h : c.inodeValid i = true) : i < 4294967296 ∧ i ≠ 0 := by
  have := hc.blocks_max; have := hc.fits
  unfold Conf.inodeValid at h; unfold Conf.firstAlloc at this
  simp only [Bool.and_eq_true, decide_eq_true_eq] at h
  have ht : 3 ≤ c.tableStart := by unfold Conf.tableStart Conf.imapStart; split <;> omega
  omega

theorem DirFile.ent (hc : c.Ok) (hp : c.PosixOk) {f : AFile} {d : ADir} (h : DirFile c f d) (ok : DirOk c d) (k : Nat) : entAt c f k = d.slot k := by
  have hn := ds_name hp
  have hd := ds_ge hp
  have hb : ∀ j, j < c.ds → f.bytes (c.idxOff k + j) = encEnt (d.slot k) j := fun j hj => by rw [h.bytes]; exact dirByte_ent hp d hj
  unfold entAt
  rw [h.size, offIdx_dirSize hp]
  have hi : (le32 fun j => f.bytes (c.idxOff k + j)) = entIno (d.slot k) := by
    rw [le32_congr (g := encEnt (d.slot k)) (fun j hj => hb j (by omega))]
    exact encEnt_ino (fun i s hs => (inode_small hc (ok.ino k i s hs)).1)
  rcases hs : d.slot k with _ | ⟨i, s⟩
  · have hi2 : (le32 fun j => f.bytes (c.idxOff k + j)) = 0 := by rw [hi, hs]; rfl
    simp only [hi2]
    rw [if_neg (fun hh => hh.2 rfl)]
  · have hk : k < d.n := by
      by_contra hk
      rw [ok.out k (by omega)] at hs; cases hs
    have hi2 : (le32 fun j => f.bytes (c.idxOff k + j)) = i := by rw [hi, hs]; rfl
    simp only [hi2]
    rw [if_pos ⟨hk, (inode_small hc (ok.ino k i s hs)).2⟩]
    congr 2
    rw [← encEnt_decode (ok.name k i s hs) (i := i), ← hs]
    congr 1
    apply List.map_congr_left
    intro j hj
    rw [List.mem_range] at hj
    rw [Nat.add_assoc, hb _ (by omega)]

theorem DirFile.dirOf (hc : c.Ok) (hp : c.PosixOk) {f : AFile} {d : ADir} (h : DirFile c f d) (ok : DirOk c d) : dirOf c f = d := by
  unfold RedFs.dirOf
  rw [h.size, offIdx_dirSize hp, show entAt c f = d.slot from funext (h.ent hc hp ok)]

/-- The file that holds a directory is determined by it. -/
theorem DirFile.unique {f f' : AFile} {d : ADir} (h : DirFile c f d) (h' : DirFile c f' d) (hl : f'.nlink = f.nlink) (hpn : f'.parent = f.parent) : f' = f := by
  apply AFile.ext
  · rw [h.mode, h'.mode]
  · exact hl
  · exact hpn
  · rw [h.size, h'.size]
  · funext off; rw [h.bytes, h'.bytes]

/-- Writing one entry. -/
theorem DirFile.write (hp : c.PosixOk) {f : AFile} {d : ADir} (h : DirFile c f d) (k : Nat) (e : Nat × List Byte) {b : Nat → Byte}
    (hb : ∀ j, j < c.ds → b j = encEnt (some e) j) : DirFile c (f.write (c.idxOff k) c.ds b) (d.set k e) where
  mode := h.mode
  size := by
    show max f.size _ = _
    rw [h.size]; exact dirSize_max hp _ _
  bytes off := by
    show (if c.idxOff k ≤ off ∧ off < c.idxOff k + c.ds then b (off - c.idxOff k) else f.bytes off) = _
    rcases dirByte_cases hp off with ⟨k', j, hj, rfl⟩ | ⟨h1, h2⟩
    · rw [dirByte_ent hp _ hj]
      by_cases hk : k' = k
      · subst hk
        rw [if_pos (by omega), show c.idxOff k' + j - c.idxOff k' = j by omega, hb j hj]
        show _ = encEnt (if k' = k' then _ else _) j
        rw [if_pos rfl]
      · rw [if_neg, h.bytes, dirByte_ent hp _ hj]
        · show _ = encEnt (if k' = k then _ else _) j
          rw [if_neg hk]
        · intro hh
          obtain ⟨j', hj'⟩ := Nat.exists_eq_add_of_le hh.1
          exact hk (idxOff_inj hp hj (by omega) hj').1
    · rw [if_neg (h2 k), h.bytes, h1, h1]

/-- Freeing an entry in the middle. -/
theorem DirFile.clear (hp : c.PosixOk) {f : AFile} {d : ADir} (h : DirFile c f d) {k : Nat} (hk : k < d.n) {b : Nat → Byte}
    (hb : ∀ j, j < c.ds → b j = 0) : DirFile c (f.write (c.idxOff k) c.ds b) ⟨d.n, fun j => if j = k then none else d.slot j⟩ where
  mode := h.mode
  size := by
    show max f.size _ = _
    rw [h.size, dirSize_max hp]; congr 1; exact Nat.max_eq_left hk
  bytes off := by
    show (if c.idxOff k ≤ off ∧ off < c.idxOff k + c.ds then b (off - c.idxOff k) else f.bytes off) = _
    rcases dirByte_cases hp off with ⟨k', j, hj, rfl⟩ | ⟨h1, h2⟩
    · rw [dirByte_ent hp _ hj]
      by_cases hk : k' = k
      · subst hk
        rw [if_pos (by omega), show c.idxOff k' + j - c.idxOff k' = j by omega, hb j hj]
        show _ = encEnt (if k' = k' then _ else _) j
        rw [if_pos rfl]; rfl
      · rw [if_neg, h.bytes, dirByte_ent hp _ hj]
        · show _ = encEnt (if k' = k then _ else _) j
          rw [if_neg hk]
        · intro hh
          obtain ⟨j', hj'⟩ := Nat.exists_eq_add_of_le hh.1
          exact hk (idxOff_inj hp hj (by omega) hj').1
    · rw [if_neg (h2 k), h.bytes, h1, h1]

/-- Dropping entries at the end. -/
theorem DirFile.truncate (hp : c.PosixOk) {f : AFile} {d : ADir} (h : DirFile c f d) (m : Nat) :
    DirFile c (f.truncate (dirSize c m)) ⟨m, fun j => if j < m then d.slot j else none⟩ where
  mode := h.mode
  size := rfl
  bytes off := by
    show (if off < dirSize c m then f.bytes off else 0) = _
    rcases dirByte_cases hp off with ⟨k, j, hj, rfl⟩ | ⟨h1, h2⟩
    · rw [dirByte_ent hp _ hj]
      show _ = encEnt (if k < m then _ else _) j
      by_cases hk : k < m
      · rw [if_pos ((dirSize_gt hp hj).2 hk), if_pos hk, h.bytes, dirByte_ent hp _ hj]
      · rw [if_neg (fun hh => hk ((dirSize_gt hp hj).1 hh)), if_neg hk]; rfl
    · rw [h.bytes, h1, h1]; split <;> rfl

/-! ### Trimming -/

theorem lastUsed_le (slot : Nat → Option (Nat × List Byte)) (n : Nat) : lastUsed slot n ≤ n := by
  induction n with
  | zero => exact Nat.le_refl _
  | succ n ih => unfold lastUsed; split <;> omega

theorem lastUsed_out (slot : Nat → Option (Nat × List Byte)) {n k : Nat} (h1 : lastUsed slot n ≤ k) (h2 : k < n) : slot k = none := by
  induction n with
  | zero => omega
  | succ n ih =>
    unfold lastUsed at h1
    split at h1
    · next hn =>
      by_cases hk : k = n
      · rw [hk, hn]
      · exact ih h1 (by omega)
    · omega

theorem lastUsed_last (slot : Nat → Option (Nat × List Byte)) {n : Nat} (h : 0 < lastUsed slot n) : slot (lastUsed slot n - 1) ≠ none := by
  induction n with
  | zero => unfold lastUsed at h; omega
  | succ n ih =>
    unfold lastUsed at h ⊢
    split
    · next hn => rw [if_pos hn] at h; exact ih h
    · next hn => exact hn

theorem lastUsed_eq (slot : Nat → Option (Nat × List Byte)) {n m : Nat} (hm : m ≤ n) (h1 : ∀ k, m ≤ k → k < n → slot k = none) (h2 : 0 < m → slot (m - 1) ≠ none) :
    lastUsed slot n = m := by
  have h3 := lastUsed_le slot n
  rcases Nat.lt_trichotomy (lastUsed slot n) m with h | h | h
  · exact absurd (lastUsed_out slot (n := n) (k := m - 1) (by omega) (by omega)) (h2 (by omega))
  · exact h
  · exact absurd (h1 (lastUsed slot n - 1) (by omega) (by omega)) (lastUsed_last slot (by omega))

/-- Freeing an entry. -/
theorem DirOk.del {d : ADir} (h : DirOk c d) (k : Nat) : DirOk c (d.del k) where
  max := by
    show (if k + 1 = d.n then _ else d.n) ≤ _
    have := lastUsed_le d.slot k; have := h.max
    split <;> omega
  out j hj := by
    show (if j = k then none else d.slot j) = none
    split
    · rfl
    · next hne =>
      by_cases hn : k + 1 = d.n
      · have hj' : lastUsed d.slot k ≤ j := by
          have : (d.del k).n = lastUsed d.slot k := if_pos hn
          omega
        by_cases hjk : j < k
        · exact lastUsed_out _ hj' hjk
        · exact h.out j (by omega)
      · have : (d.del k).n = d.n := if_neg hn
        exact h.out j (by omega)
  last hpos := by
    show (if (d.del k).n - 1 = k then none else d.slot _) ≠ none
    by_cases hn : k + 1 = d.n
    · have e : (d.del k).n = lastUsed d.slot k := if_pos hn
      have := lastUsed_le d.slot k
      rw [e] at hpos ⊢
      rw [if_neg (by omega)]
      exact lastUsed_last _ hpos
    · have e : (d.del k).n = d.n := if_neg hn
      rw [e] at hpos ⊢
      rw [if_neg (by omega)]
      exact h.last hpos
  ino j i s hs := by
    have hs' : (if j = k then none else d.slot j) = some (i, s) := hs
    split at hs'
    · cases hs'
    · exact h.ino j i s hs'
  name j i s hs := by
    have hs' : (if j = k then none else d.slot j) = some (i, s) := hs
    split at hs'
    · cases hs'
    · exact h.name j i s hs'
  uniq j j' i i' s hs hs2 := by
    have hs' : (if j = k then none else d.slot j) = some (i, s) := hs
    have hs2' : (if j' = k then none else d.slot j') = some (i', s) := hs2
    split at hs'
    · cases hs'
    · split at hs2'
      · cases hs2'
      · exact h.uniq j j' i i' s hs' hs2'

/-- Setting an entry. -/
theorem DirOk.set {d : ADir} (h : DirOk c d) {k i : Nat} {s : List Byte} (hk : k < c.direntsMax) (hkn : k ≤ d.n) (hi : c.inodeValid i = true) (hs : NameOk c s)
    (hu : ∀ k' i', d.slot k' = some (i', s) → k' = k) : DirOk c (d.set k (i, s)) where
  max := by show Max.max d.n (k + 1) ≤ _; have := h.max; omega
  out j hj := by
    have hj' : Max.max d.n (k + 1) ≤ j := hj
    show (if j = k then _ else d.slot j) = none
    rw [if_neg (by omega)]; exact h.out j (by omega)
  last _ := by
    show (if Max.max d.n (k + 1) - 1 = k then _ else d.slot (Max.max d.n (k + 1) - 1)) ≠ none
    split
    · simp
    · next hne =>
      have : Max.max d.n (k + 1) - 1 = d.n - 1 := by omega
      rw [this]; exact h.last (by omega)
  ino j i' s' hj := by
    have hj' : (if j = k then some (i, s) else d.slot j) = some (i', s') := hj
    split at hj'
    · injection hj' with e; injection e with e1 e2; rw [← e1]; exact hi
    · exact h.ino j i' s' hj'
  name j i' s' hj := by
    have hj' : (if j = k then some (i, s) else d.slot j) = some (i', s') := hj
    split at hj'
    · injection hj' with e; injection e with e1 e2; rw [← e2]; exact hs
    · exact h.name j i' s' hj'
  uniq j j' i1 i2 s' h1 h2 := by
    have h1' : (if j = k then some (i, s) else d.slot j) = some (i1, s') := h1
    have h2' : (if j' = k then some (i, s) else d.slot j') = some (i2, s') := h2
    split at h1' <;> split at h2'
    · omega
    · next e1 _ =>
      injection h1' with e; injection e with _ e2
      rw [← e2] at h2'; have := hu _ _ h2'; omega
    · next _ e1 =>
      injection h2' with e; injection e with _ e2
      rw [← e2] at h1'; have := hu _ _ h1'; omega
    · exact h.uniq j j' i1 i2 s' h1' h2'

end RedFs
namespace RedFs
variable {c : Conf}
theorem ADir.ext' {d d' : ADir} (h1 : d.n = d'.n) (h2 : ∀ k, d.slot k = d'.slot k) : d = d' := by
  cases d; cases d'; simp only [ADir.mk.injEq]; exact ⟨h1, funext h2⟩

/-- A new entry taken back. -/
theorem ADir.set_del {d : ADir} (h : DirOk c d) {k : Nat} (hk : k ≤ d.n) (hf : d.slot k = none) (e : Nat × List Byte) : (d.set k e).del k = d := by
  apply ADir.ext'
  · show (if k + 1 = max d.n (k + 1) then lastUsed (d.set k e).slot k else max d.n (k + 1)) = d.n
    by_cases hkn : k = d.n
    · rw [if_pos (by omega)]
      apply lastUsed_eq _ (by omega)
      · intro j h1 h2; omega
      · intro hpos
        show (if d.n - 1 = k then _ else d.slot (d.n - 1)) ≠ none
        rw [if_neg (by omega)]; exact h.last hpos
    · by_cases hl : k + 1 = d.n
      · exact absurd (by rw [← hf]; congr 1; omega) (h.last (by omega))
      · rw [if_neg (by omega)]; omega
  · intro j
    show (if j = k then none else if j = k then _ else d.slot j) = d.slot j
    by_cases hj : j = k
    · rw [if_pos hj, hj, hf]
    · rw [if_neg hj, if_neg hj]

/-- An entry changed back. -/
theorem ADir.set_set {d : ADir} (h : DirOk c d) {k : Nat} {e : Nat × List Byte} (hf : d.slot k = some e) (e' : Nat × List Byte) : (d.set k e').set k e = d := by
  have hk : k < d.n := by
    by_contra hk
    rw [h.out k (by omega)] at hf; cases hf
  apply ADir.ext'
  · show max (max d.n (k + 1)) (k + 1) = d.n
    omega
  · intro j
    show (if j = k then some e else if j = k then _ else d.slot j) = d.slot j
    by_cases hj : j = k
    · rw [if_pos hj, hj, hf]
    · rw [if_neg hj, if_neg hj]

end RedFs
