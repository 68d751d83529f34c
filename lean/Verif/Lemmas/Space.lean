import Verif.Spec.Space
import Verif.Lemmas.CoreFile
set_option linter.unusedSimpArgs false
set_option linter.unusedVariables false
/-! The positions that a write can make writable, counted. -/
namespace RedFs
open M Bitmap Vol Spec

variable {c : Conf}

/-- The `g`-th indirect node of a file. -/
def indNode (c : Conf) (g : Nat) : Pos :=
  if g < c.indirect then .ent (c.direct + g)
  else .sub (.ent (c.direct + c.indirect + (g - c.indirect) / c.indirEntries)) ((g - c.indirect) % c.indirEntries)

def spanL (f : Nat → Pos) (lo hi : Nat) : List Pos := (List.range (hi - lo + 1)).map fun i => f (lo + i)

theorem mem_spanL {f : Nat → Pos} {lo hi x : Nat} (h1 : lo ≤ x) (h2 : x ≤ hi) : f x ∈ spanL f lo hi := by
  unfold spanL
  rw [List.mem_map]
  exact ⟨x - lo, by rw [List.mem_range]; omega, by rw [Nat.add_sub_cancel' h1]⟩

/-- The positions for the blocks `b0` to `b1`. -/
def needL (c : Conf) (b0 b1 : Nat) : List Pos :=
  spanL (posOf c) b0 b1
  ++ (if c.direct ≤ b1 then spanL (indNode c) ((b0 - c.direct) / c.indirEntries) ((b1 - c.direct) / c.indirEntries) else [])
  ++ (if c.direct + c.indirect * c.indirEntries ≤ b1 then
        spanL (fun h => .ent (c.direct + c.indirect + h))
          ((b0 - (c.direct + c.indirect * c.indirEntries)) / (c.indirEntries * c.indirEntries))
          ((b1 - (c.direct + c.indirect * c.indirEntries)) / (c.indirEntries * c.indirEntries)) else [])

theorem needL_length (b0 b1 : Nat) : (needL c b0 b1).length = blocksNeed c b0 b1 := by
  unfold needL blocksNeed spanL spanned
  simp only [List.length_append, List.length_map, List.length_range]
  congr 1
  · congr 1; split <;> simp
  · split <;> simp

theorem div_of {m q n r : Nat} (hr : r < n) (h : m = q * n + r) : m / n = q := by
  apply Nat.div_eq_of_lt_le
  · omega
  · rw [Nat.add_mul]; omega

theorem needL_cover (hc : c.Ok) {b0 b1 b : Nat} (h0 : b0 ≤ b) (h1 : b ≤ b1) (hb : b < c.dataBlocks) {p : Pos}
    (hp : brSet 2 (posOf c b) p) : p ∈ needL c b0 b1 := by
  have hie := hc.ie_pos
  have hleaf : posOf c b ∈ needL c b0 b1 := by
    unfold needL; rw [List.append_assoc, List.mem_append]; exact Or.inl (mem_spanL h0 h1)
  have hind : ∀ g, c.direct ≤ b → (b - c.direct) / c.indirEntries = g → indNode c g ∈ needL c b0 b1 := by
    rintro g hd rfl
    unfold needL
    rw [List.append_assoc, List.mem_append, List.mem_append, if_pos (by omega : c.direct ≤ b1)]
    exact Or.inr (Or.inl (mem_spanL (Nat.div_le_div_right (by omega)) (Nat.div_le_div_right (by omega))))
  have hdind : ∀ g, c.direct + c.indirect * c.indirEntries ≤ b →
      (b - (c.direct + c.indirect * c.indirEntries)) / (c.indirEntries * c.indirEntries) = g → Pos.ent (c.direct + c.indirect + g) ∈ needL c b0 b1 := by
    rintro g hd rfl
    unfold needL
    rw [List.mem_append, if_pos (by omega : c.direct + c.indirect * c.indirEntries ≤ b1)]
    exact Or.inr (mem_spanL (f := fun h => Pos.ent (c.direct + c.indirect + h)) (Nat.div_le_div_right (by omega)) (Nat.div_le_div_right (by omega)))
  have hco := coord_posOf hc hb
  generalize posOf c b = q at *
  cases hco with
  | direct hd =>
    rcases hp with (hp | hp) | ⟨_, rfl⟩
    · cases hp
    · cases hp
    · exact hleaf
  | indir e k g1 g2 g3 hbe =>
    rcases hp with (hp | hp) | ⟨_, rfl⟩
    · cases hp
    · injection hp with hp; subst hp
      have := hind (e - c.direct) (by omega) (div_of g3 (by omega))
      unfold indNode at this
      rw [if_pos (by omega), Nat.add_sub_cancel' g1] at this
      exact this
    · exact hleaf
  | dindir e d k g1 g2 g3 g4 hbe =>
    unfold Conf.indirBlocks Conf.dindirData at hbe
    have hdk : d * c.indirEntries + k < c.indirEntries * c.indirEntries := by
      have := Nat.mul_le_mul_right c.indirEntries (show d + 1 ≤ c.indirEntries from g3)
      rw [Nat.add_mul] at this; omega
    rcases hp with (hp | hp) | ⟨_, rfl⟩
    · injection hp with hp; subst hp
      have := hdind (e - c.direct - c.indirect) (by omega) (div_of hdk (by omega))
      rwa [show c.direct + c.indirect + (e - c.direct - c.indirect) = e by omega] at this
    · injection hp with hp; subst hp
      have hg := hind (c.indirect + ((e - c.direct - c.indirect) * c.indirEntries + d)) (by omega) (div_of g4 (by
        rw [Nat.add_mul, Nat.add_mul, Nat.mul_assoc]; omega))
      unfold indNode at hg
      rw [if_neg (by omega), Nat.add_sub_cancel_left, div_of g3 rfl, Nat.add_comm _ d, Nat.add_mul_mod_self_right, Nat.mod_eq_of_lt g3,
        show c.direct + c.indirect + (e - c.direct - c.indirect) = e by omega] at hg
      exact hg
    · exact hleaf

/-- There are at most `writeNeed` positions to make writable. -/
theorem write_cover (hc : c.Ok) {size start len : Nat} (h0 : 0 < len) (hin : start + len ≤ c.sizeMax) (hs : size ≤ c.sizeMax) :
    ∃ L : List Pos, L.Nodup ∧ (∀ p ∈ L, PosOk c p) ∧
      (∀ b, Blks c start (start + len) b ∨ (size < start ∧ b = size / c.blockSize) → ∀ p, brSet 2 (posOf c b) p → p ∈ L) ∧
      L.length ≤ writeNeed c size start len := by
  have hB := bs_pos hc
  obtain ⟨L, h1, h2, h3⟩ := exists_nodup (PosOk c) (needL c (start / c.blockSize) ((start + len - 1) / c.blockSize) ++
    (if size < start then pathL (posOf c (size / c.blockSize)) else []))
  refine ⟨L, h1, fun p hp => ((h2 p).1 hp).2, ?_, ?_⟩
  · rintro b (⟨off, g1, g2, rfl⟩ | ⟨g1, rfl⟩) p hp
    · have hb := div_lt_data hc (show off < c.sizeMax by omega)
      refine (h2 p).2 ⟨?_, brSet_ok hc hb hp⟩
      rw [List.mem_append]
      exact Or.inl (needL_cover hc (Nat.div_le_div_right g1) (Nat.div_le_div_right (by omega)) hb hp)
    · have hb := div_lt_data hc (show size < c.sizeMax by omega)
      refine (h2 p).2 ⟨?_, brSet_ok hc hb hp⟩
      rw [List.mem_append, if_pos g1]
      exact Or.inr (mem_pathL.2 hp)
  · refine Nat.le_trans h3 ?_
    unfold writeNeed
    rw [if_neg (show ¬ len = 0 by omega), List.length_append, needL_length]
    apply Nat.add_le_add_left
    split
    · unfold pathL
      generalize posOf c (size / c.blockSize) = q
      rcases q with e | ⟨e | ⟨e, d⟩, k⟩ <;> simp [anc]
    · simp

end RedFs
