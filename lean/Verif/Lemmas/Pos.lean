import Verif.Spec.File
import Verif.Lemmas.Imap
set_option linter.unusedSimpArgs false
set_option linter.unusedVariables false
namespace RedFs

variable {c : Conf}

namespace Conf.Ok
theorem ie_pos (h : c.Ok) : 27 ≤ c.indirEntries := by
  have := h.bs_ge; unfold Conf.indirEntries; omega
theorem dd_pos (h : c.Ok) : 0 < c.dindirData := by
  have := h.ie_pos; unfold Conf.dindirData; exact Nat.mul_pos (by omega) (by omega)
theorem dindirBlocks_le (h : c.Ok) : c.dindirBlocks ≤ c.dindirPtrs * c.dindirData := by
  unfold Conf.dindirBlocks
  split
  · next hp =>
    have h1 : c.dindirBlocksMax ≤ c.dindirPtrsMax * c.dindirData := by
      unfold Conf.dindirPtrsMax
      have hd := h.dd_pos
      have := Nat.div_add_mod c.dindirBlocksMax c.dindirData
      have := Nat.mod_lt c.dindirBlocksMax hd
      rw [Nat.add_mul, Nat.mul_comm]
      split
      · omega
      · omega
    exact Nat.le_trans h1 (Nat.mul_le_mul_right _ hp)
  · exact Nat.le_refl _
theorem dataBlocks_eq (c : Conf) : c.dataBlocks = c.direct + c.indirBlocks + c.dindirBlocks := rfl
end Conf.Ok

/-- Coordinates of a logical block. -/
inductive Coord (c : Conf) (b : Nat) : Pos → Prop
  | direct (h : b < c.direct) : Coord c b (.ent b)
  | indir (e k : Nat) (h1 : c.direct ≤ e) (h2 : e < c.direct + c.indirect) (h3 : k < c.indirEntries)
      (hb : b = c.direct + (e - c.direct) * c.indirEntries + k) : Coord c b (.sub (.ent e) k)
  | dindir (e d k : Nat) (h1 : c.direct + c.indirect ≤ e) (h2 : e < c.inodeEntries) (h3 : d < c.indirEntries)
      (h4 : k < c.indirEntries)
      (hb : b = c.direct + c.indirBlocks + (e - c.direct - c.indirect) * c.dindirData + d * c.indirEntries + k) :
      Coord c b (.sub (.sub (.ent e) d) k)

theorem coord_posOf (hc : c.Ok) {b : Nat} (hb : b < c.dataBlocks) : Coord c b (posOf c b) := by
  have hie := hc.ie_pos
  unfold posOf
  split
  · next h => exact .direct h
  split
  · next h1 h2 =>
    have hm := Nat.div_add_mod (b - c.direct) c.indirEntries
    have hl := Nat.mod_lt (b - c.direct) (show 0 < c.indirEntries by omega)
    have hd : (b - c.direct) / c.indirEntries < c.indirect := by
      rw [Nat.div_lt_iff_lt_mul (by omega)]; unfold Conf.indirBlocks at h2; omega
    generalize (b - c.direct) / c.indirEntries = x at *
    generalize (b - c.direct) % c.indirEntries = y at *
    refine .indir _ _ (by omega) (by omega) hl ?_
    have e1 : c.direct + x - c.direct = x := by omega
    rw [e1, Nat.mul_comm]; omega
  · next h1 h2 =>
    have hdd := hc.dd_pos
    generalize ho : b - (c.direct + c.indirBlocks) = o
    dsimp only
    have hlt : o < c.dindirPtrs * c.dindirData := by
      have := hc.dindirBlocks_le; rw [Conf.Ok.dataBlocks_eq] at hb; omega
    have hq : o / c.dindirData < c.dindirPtrs := by rw [Nat.div_lt_iff_lt_mul hdd]; exact hlt
    have hm := Nat.div_add_mod o c.dindirData
    have hl := Nat.mod_lt o hdd
    generalize o % c.dindirData = r at *
    generalize o / c.dindirData = x at *
    have hm2 := Nat.div_add_mod r c.indirEntries
    have hl2 := Nat.mod_lt r (show 0 < c.indirEntries by omega)
    have hd2 : r / c.indirEntries < c.indirEntries := by
      rw [Nat.div_lt_iff_lt_mul (by omega)]; unfold Conf.dindirData at hl; exact hl
    generalize r % c.indirEntries = k at *
    generalize r / c.indirEntries = d at *
    have hp : c.dindirPtrs = c.inodeEntries - c.direct - c.indirect := rfl
    refine .dindir _ _ _ (by omega) (by omega) hd2 hl2 ?_
    have e1 : c.direct + c.indirect + x - c.direct - c.indirect = x := by omega
    rw [e1, Nat.mul_comm x, Nat.mul_comm d]
    omega

theorem divOf' {a E q r : Nat} (hr : r < E) (h : a = q * E + r) : a / E = q := by
  rw [h, Nat.mul_comm, Nat.mul_add_div (by omega), Nat.div_eq_of_lt hr]; rfl
theorem modOf' {a E q r : Nat} (hr : r < E) (h : a = q * E + r) : a % E = r := by
  rw [h, Nat.mul_comm, Nat.mul_add_mod, Nat.mod_eq_of_lt hr]

/-- The coordinates determine the position. -/
theorem Coord.eq (hc : c.Ok) {b : Nat} {p : Pos} (h : Coord c b p) : p = posOf c b := by
  have hie := hc.ie_pos
  have hdd := hc.dd_pos
  have hp := hc.ptrs
  cases h with
  | direct h => unfold posOf; rw [if_pos h]
  | indir e k h1 h2 h3 hb =>
    obtain ⟨x, rfl⟩ : ∃ x, e = c.direct + x := ⟨e - c.direct, by omega⟩
    have e0 : c.direct + x - c.direct = x := by omega
    rw [e0] at hb
    have hx : x + 1 ≤ c.indirect := by omega
    have hle : (x + 1) * c.indirEntries ≤ c.indirBlocks := by
      unfold Conf.indirBlocks; exact Nat.mul_le_mul_right _ hx
    rw [Nat.add_mul] at hle
    have hb' : b - c.direct = x * c.indirEntries + k := by omega
    unfold posOf
    rw [if_neg (by omega), if_pos (by omega), divOf' h3 hb', modOf' h3 hb']
  | dindir e d k h1 h2 h3 h4 hb =>
    obtain ⟨x, rfl⟩ : ∃ x, e = c.direct + c.indirect + x := ⟨e - c.direct - c.indirect, by omega⟩
    have e0 : c.direct + c.indirect + x - c.direct - c.indirect = x := by omega
    rw [e0] at hb
    have hdk : d * c.indirEntries + k < c.dindirData := by
      unfold Conf.dindirData
      calc d * c.indirEntries + k < d * c.indirEntries + c.indirEntries := by omega
        _ = (d + 1) * c.indirEntries := by rw [Nat.add_mul]; omega
        _ ≤ _ := Nat.mul_le_mul_right _ (by omega)
    have hb' : b - (c.direct + c.indirBlocks) = x * c.dindirData + (d * c.indirEntries + k) := by omega
    unfold posOf
    rw [if_neg (by omega), if_neg (by omega)]
    simp only [divOf' hdk hb', modOf' hdk hb', divOf' h4 rfl, modOf' h4 rfl]

theorem Coord.posOk (hc : c.Ok) {b : Nat} {p : Pos} (h : Coord c b p) : PosOk c p ∧ p.lvl c = 0 ∧ p.first c = b := by
  have hp := hc.ptrs
  cases h with
  | direct h => 
    refine ⟨?_, ?_, ?_⟩
    · show b < c.inodeEntries; omega
    · show c.height b = 0; simp [Conf.height, h]
    · simp [Pos.first, h]
  | indir e k h1 h2 h3 hb =>
    have hh : c.height e = 1 := by unfold Conf.height; rw [if_neg (by omega), if_pos h2]
    refine ⟨⟨?_, ?_, h3⟩, ?_, ?_⟩
    · show e < c.inodeEntries; omega
    · show 0 < c.height e; omega
    · show c.height e - 1 = 0; omega
    · simp only [Pos.first, Pos.lvl, hh, if_true]
      rw [if_neg (by omega), if_pos h2, hb]; omega
  | dindir e d k h1 h2 h3 h4 hb =>
    have hh : c.height e = 2 := by unfold Conf.height; rw [if_neg (by omega), if_neg (by omega)]
    refine ⟨⟨⟨h2, ?_, h3⟩, ?_, h4⟩, ?_, ?_⟩
    · show 0 < c.height e; omega
    · show 0 < c.height e - 1; omega
    · show c.height e - 1 - 1 = 0; omega
    · simp only [Pos.first, Pos.lvl, hh]
      rw [if_neg (by omega), if_neg (by omega), hb]; simp

theorem posOf_ok (hc : c.Ok) {b : Nat} (hb : b < c.dataBlocks) :
    PosOk c (posOf c b) ∧ (posOf c b).lvl c = 0 ∧ (posOf c b).first c = b := (coord_posOf hc hb).posOk hc

theorem posOf_inj (hc : c.Ok) {b b' : Nat} (hb : b < c.dataBlocks) (hb' : b' < c.dataBlocks)
    (h : posOf c b = posOf c b') : b = b' := by
  rw [← (posOf_ok hc hb).2.2, h, (posOf_ok hc hb').2.2]

/-- Every leaf is the position of a logical block. -/
theorem leaf_posOf (hc : c.Ok) {p : Pos} (hp : PosOk c p) (hl : p.lvl c = 0) : Coord c (p.first c) p := by
  have hptr := hc.ptrs
  match p, hp, hl with
  | .ent e, hp, hl =>
    simp only [Pos.lvl, Conf.height] at hl
    split at hl
    · next h => simp only [Pos.first, h, if_true]; exact .direct h
    · split at hl <;> omega
  | .sub (.ent e) k, ⟨h1, h2, h3⟩, hl =>
    have h1 : e < c.inodeEntries := h1
    have hh : c.height e = 1 := by
      simp only [Pos.lvl] at hl h2; omega
    have hr : c.direct ≤ e ∧ e < c.direct + c.indirect := by
      unfold Conf.height at hh
      split at hh
      · omega
      · split at hh <;> omega
    refine .indir e k hr.1 hr.2 h3 ?_
    simp only [Pos.first, Pos.lvl, hh, if_true]
    rw [if_neg (by omega), if_pos hr.2]; omega
  | .sub (.sub (.ent e) d) k, ⟨⟨h1, h2, h3⟩, h4, h5⟩, hl =>
    have h1 : e < c.inodeEntries := h1
    have hh : c.height e = 2 := by
      simp only [Pos.lvl] at hl h2 h4
      have : c.height e ≤ 2 := by unfold Conf.height; split; omega; split <;> omega
      omega
    have hr : c.direct + c.indirect ≤ e := by
      unfold Conf.height at hh
      split at hh
      · omega
      · split at hh <;> omega
    refine .dindir e d k hr h1 h3 h5 ?_
    simp only [Pos.first, Pos.lvl, hh]
    rw [if_neg (by omega), if_neg (by omega)]; simp
  | .sub (.sub (.sub p m) d) k, ⟨⟨⟨h1, h2, h3⟩, h4, h5⟩, h6, h7⟩, hl =>
    exfalso
    have : p.lvl c ≤ 2 := by
      clear h1 h2 h3 h4 h5 h6 h7 hl hptr
      induction p with
      | ent e => simp only [Pos.lvl]; unfold Conf.height; split; omega; split <;> omega
      | sub p k ih => simp only [Pos.lvl]; omega
    simp only [Pos.lvl] at h4 h6; omega

theorem leaf_eq (hc : c.Ok) {p : Pos} (hp : PosOk c p) (hl : p.lvl c = 0) : p = posOf c (p.first c) :=
  (leaf_posOf hc hp hl).eq hc

end RedFs
