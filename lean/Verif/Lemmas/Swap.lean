import Verif.Spec.Swap
import Verif.Lemmas.Buffer
import Verif.Props.Util
import Mathlib.Tactic.IntervalCases
import Mathlib.Tactic.Ring
/-!
Swapping the members of a node mirrors their bytes.
-/
set_option linter.unusedVariables false
set_option linter.unusedSimpArgs false
namespace RedFs.Swap
open RedFs Buffer Endian

theorem byteOf_ld16 (big : Bool) (f : Bytes) (a k : Nat) (hk : k < 2) : byteOf big 2 (ld16 big f a) k = f (a + k) := by
  apply BitVec.eq_of_getLsbD_eq
  intro j hj
  unfold byteOf ld16
  cases big <;> interval_cases k <;> interval_cases j <;> simp

theorem byteOf_ld32 (big : Bool) (f : Bytes) (a k : Nat) (hk : k < 4) : byteOf big 4 (ld32 big f a) k = f (a + k) := by
  apply BitVec.eq_of_getLsbD_eq
  intro j hj
  unfold byteOf ld32
  cases big <;> interval_cases k <;> interval_cases j <;> simp

theorem byteOf_ld64 (big : Bool) (f : Bytes) (a k : Nat) (hk : k < 8) : byteOf big 8 (ld64 big f a) k = f (a + k) := by
  apply BitVec.eq_of_getLsbD_eq
  intro j hj
  unfold byteOf ld64
  cases big <;> interval_cases k <;> interval_cases j <;> simp

theorem byteOf_not {n : Nat} (big : Bool) (w : Nat) (x : BitVec n) (k : Nat) (hk : k < w) : byteOf (!big) w x k = byteOf big w x (w - 1 - k) := by
  unfold byteOf
  cases big
  · simp
  · simp; congr 1; omega

theorem byteOf_rev16 (big : Bool) (x : BitVec 16) (k : Nat) (hk : k < 2) : byteOf big 2 (rev16 x) k = byteOf (!big) 2 x k := Props.Util.C35_portable16 x big k hk
theorem byteOf_rev32 (big : Bool) (x : BitVec 32) (k : Nat) (hk : k < 4) : byteOf big 4 (rev32 x) k = byteOf (!big) 4 x k := Props.Util.C35_portable32 x big k hk
theorem byteOf_rev64 (big : Bool) (x : BitVec 64) (k : Nat) (hk : k < 8) : byteOf big 8 (rev64 x) k = byteOf (!big) 8 x k := Props.Util.C35_portable64 x big k hk

/-- The bytes of a member in the opposite order. -/
def flip (x : Nat × Nat) (f : Bytes) : Bytes := fun i => if x.1 ≤ i ∧ i < x.1 + x.2 then f (x.1 + (x.2 - 1 - (i - x.1))) else f i

theorem sw16_eq (big : Bool) (a : Nat) (f : Bytes) : sw16 big a f = flip (a, 2) f := by
  funext i
  unfold sw16 st flip
  dsimp only
  split
  · rw [byteOf_rev16 _ _ _ (by omega), byteOf_not _ _ _ _ (by omega), byteOf_ld16 _ _ _ _ (by omega)]
  · rfl
theorem sw32_eq (big : Bool) (a : Nat) (f : Bytes) : sw32 big a f = flip (a, 4) f := by
  funext i
  unfold sw32 st flip
  dsimp only
  split
  · rw [byteOf_rev32 _ _ _ (by omega), byteOf_not _ _ _ _ (by omega), byteOf_ld32 _ _ _ _ (by omega)]
  · rfl
theorem sw64_eq (big : Bool) (a : Nat) (f : Bytes) : sw64 big a f = flip (a, 8) f := by
  funext i
  unfold sw64 st flip
  dsimp only
  split
  · rw [byteOf_rev64 _ _ _ (by omega), byteOf_not _ _ _ _ (by omega), byteOf_ld64 _ _ _ _ (by omega)]
  · rfl

def flips (L : List (Nat × Nat)) (f : Bytes) : Bytes := L.foldl (fun f x => flip x f) f

theorem flips_append (L M : List (Nat × Nat)) (f : Bytes) : flips (L ++ M) f = flips M (flips L f) := by unfold flips; rw [List.foldl_append]
theorem flips_cons (x : Nat × Nat) (L : List (Nat × Nat)) (f : Bytes) : flips (x :: L) f = flips L (flip x f) := rfl
theorem flips_nil (f : Bytes) : flips [] f = f := rfl

theorem entries_succ (a n : Nat) : entries a (n + 1) = entries a n ++ [(a + 4 * n, 4)] := by
  unfold entries; rw [List.range_succ, List.map_append]; rfl

theorem sw32s_eq (big : Bool) (a n : Nat) (f : Bytes) : sw32s big a n f = flips (entries a n) f := by
  induction n with
  | zero => rfl
  | succ n ih => rw [entries_succ, flips_append, ← ih, sw32s, sw32_eq]; rfl

theorem swapNode_eq (l : Layout) (big : Bool) (k : Kind) (hk : Has l k) (f : Bytes) : swapNode l big k f = flips (header ++ fields l k) f := by
  cases k with
  | data => exact hk.elim
  | imap => simp only [swapNode, swapHeader, sw32_eq, sw64_eq, fields, header]; rfl
  | master => simp only [swapNode, swapHeader, swapMaster, sw32_eq, sw64_eq, sw16_eq, fields, header]; rfl
  | indir =>
    simp only [Has] at hk
    simp only [swapNode, swapHeader, swapIndir, sw32_eq, sw64_eq, sw32s_eq, fields, header, hk, if_true, Layout.indirEntries]; rfl
  | dindir =>
    simp only [Has] at hk
    simp only [swapNode, swapHeader, swapIndir, sw32_eq, sw64_eq, sw32s_eq, fields, header, hk, if_true, Layout.indirEntries]; rfl
  | inode =>
    simp only [swapNode, swapHeader, swapInode, sw32_eq, sw64_eq, sw16_eq, sw32s_eq, fields, header, Layout.inodeEntries, Layout.oEntries, Layout.oPInode,
      Layout.oMode, Layout.oTimes]
    cases l.inodeBlocks <;> cases l.timestamps <;> cases l.posix <;> cases l.link <;> rfl

theorem swapMetaroot_eq (l : Layout) (big : Bool) (f : Bytes) : swapMetaroot l big f = flips ([(0, 4), (8, 8), (16, 4)] ++ metarootFields l) f := by
  simp only [swapMetaroot, sw32_eq, sw64_eq, metarootFields, Layout.oNext]
  cases l.posix <;> rfl

/-- The members are in order, from `a` up to `z`. -/
def Sorted : Nat → List (Nat × Nat) → Nat → Prop
  | a, [], z => a ≤ z
  | a, x :: L, z => a ≤ x.1 ∧ Sorted (x.1 + x.2) L z

theorem Sorted.le : ∀ {L : List (Nat × Nat)} {a z : Nat}, Sorted a L z → ∀ x ∈ L, a ≤ x.1 ∧ x.1 + x.2 ≤ z
  | [], a, z, h, x, hx => by cases hx
  | y :: L, a, z, h, x, hx => by
    obtain ⟨h1, h2⟩ := h
    have ht : ∀ {L : List (Nat × Nat)} {a z : Nat}, Sorted a L z → a ≤ z := by
      intro L
      induction L with
      | nil => exact fun h => h
      | cons y L ih => intro a z h; have := ih h.2; have := h.1; omega
    rcases List.mem_cons.1 hx with rfl | hx
    · exact ⟨h1, ht h2⟩
    · have := Sorted.le h2 x hx; omega

theorem Sorted.append : ∀ {L M : List (Nat × Nat)} {a b z : Nat}, Sorted a L b → Sorted b M z → Sorted a (L ++ M) z
  | [], [], a, b, z, h1, h2 => Nat.le_trans h1 h2
  | [], x :: M, a, b, z, h1, h2 => ⟨Nat.le_trans h1 h2.1, h2.2⟩
  | x :: L, M, a, b, z, h1, h2 => ⟨h1.1, Sorted.append h1.2 h2⟩

theorem Sorted.mono {L : List (Nat × Nat)} {a z z' : Nat} (h : Sorted a L z) (hz : z ≤ z') : Sorted a L z' := by
  have := Sorted.append h (show Sorted z [] z' from hz)
  rwa [List.append_nil] at this

theorem entries_sorted (a n : Nat) : Sorted a (entries a n) (a + 4 * n) := by
  induction n with
  | zero => exact Nat.le_refl _
  | succ n ih => rw [entries_succ]; exact ih.append ⟨Nat.le_refl _, by show _ ≤ _; omega⟩

theorem fields_sorted (l : Layout) (hl : l.Ok) (k : Kind) : Sorted 16 (fields l k) l.bs := by
  have hb := hl.bs
  cases k with
  | data => show _ ≤ _; omega
  | imap => show _ ≤ _; omega
  | master => simp only [fields, Sorted]; omega
  | indir => exact ⟨Nat.le_refl _, (entries_sorted _ _).mono (by omega)⟩
  | dindir => exact ⟨Nat.le_refl _, (entries_sorted _ _).mono (by omega)⟩
  | inode =>
    simp only [fields]
    have key : ∀ a c, c ≤ l.bs → Sorted a (entries c ((l.bs - c) / 4)) l.bs ∨ ¬ a ≤ c := by
      intro a c hc
      by_cases h : a ≤ c
      · exact Or.inl (Sorted.append (show Sorted a [] c from h) ((entries_sorted _ _).mono (by omega)))
      · exact Or.inr h
    cases l.inodeBlocks <;> cases l.timestamps <;> cases l.posix <;> cases l.link <;>
      simp only [Bool.false_eq_true, if_true, if_false, List.nil_append, List.append_nil, List.cons_append, List.append_assoc, Sorted, Bool.and_true, Bool.and_false, Nat.reduceAdd, Bool.and_self] <;>
      (refine ⟨by omega, ?_⟩) <;>
      (repeat (first | exact (key _ _ (by omega)).resolve_right (by omega) | refine ⟨by omega, ?_⟩))

theorem metarootFields_sorted (l : Layout) (hl : l.Ok) : Sorted 20 (metarootFields l) l.bs := by
  have := hl.bs
  unfold metarootFields
  cases l.posix <;> simp only [Bool.false_eq_true, if_true, if_false, Sorted] <;> omega

/-- What `flips` does, byte by byte. -/
theorem flips_spec : ∀ {L : List (Nat × Nat)} {a z : Nat}, Sorted a L z → ∀ f : Bytes,
    (∀ x ∈ L, ∀ i, x.1 ≤ i → i < x.1 + x.2 → flips L f i = f (x.1 + (x.2 - 1 - (i - x.1)))) ∧ ∀ i, ¬ InField L i → flips L f i = f i
  | [], a, z, h, f => ⟨fun x hx => (by cases hx), fun i _ => rfl⟩
  | y :: L, a, z, h, f => by
    obtain ⟨h1, h2⟩ := h
    obtain ⟨g1, g2⟩ := flips_spec h2 (flip y f)
    have hbelow : ∀ i, i < y.1 + y.2 → ¬ InField L i := by
      rintro i hi ⟨x, hx, h3, h4⟩
      have := h2.le x hx; omega
    refine ⟨?_, ?_⟩
    · intro x hx i hi1 hi2
      rw [flips_cons]
      rcases List.mem_cons.1 hx with rfl | hx
      · rw [g2 i (hbelow i hi2)]
        unfold flip; rw [if_pos ⟨hi1, hi2⟩]
      · rw [g1 x hx i hi1 hi2]
        have := h2.le x hx
        unfold flip; rw [if_neg (by omega)]
    · intro i hi
      rw [flips_cons, g2 i (fun ⟨x, hx, h⟩ => hi ⟨x, List.mem_cons_of_mem _ hx, h⟩)]
      unfold flip
      rw [if_neg (fun h => hi ⟨y, List.mem_cons_self .., h⟩)]

/-! ### Numbers -/

theorem number_congr (big : Bool) {f g : Bytes} {a : Nat} : ∀ {w : Nat}, (∀ j, j < w → f (a + j) = g (a + j)) → number big f a w = number big g a w
  | 0, _ => rfl
  | w + 1, h => by
    unfold number
    rw [number_congr big (w := w) (fun j hj => h j (by omega)), h w (by omega)]

theorem number_lt (big : Bool) (f : Bytes) (a : Nat) : ∀ w, number big f a w < 256 ^ w
  | 0 => by simp [number]
  | w + 1 => by
    have ih := number_lt big f a w
    have hb := (f (a + w)).isLt
    unfold number
    rw [Nat.pow_succ]
    split
    · omega
    · have : (f (a + w)).toNat * 256 ^ w ≤ 255 * 256 ^ w := Nat.mul_le_mul_right _ (by omega)
      omega

theorem number_inj (big : Bool) {f g : Bytes} {a : Nat} : ∀ {w : Nat}, number big f a w = number big g a w → ∀ j, j < w → f (a + j) = g (a + j)
  | 0, _, j, hj => by omega
  | w + 1, h, j, hj => by
    unfold number at h
    have hf := number_lt big f a w
    have hg := number_lt big g a w
    have h1 := (f (a + w)).isLt
    have h2 := (g (a + w)).isLt
    have key : number big f a w = number big g a w ∧ (f (a + w)).toNat = (g (a + w)).toNat := by
      cases big
      · simp only [Bool.false_eq_true, if_false] at h
        have hp : 0 < 256 ^ w := Nat.pow_pos (by decide)
        have e1 : (number false f a w + (f (a + w)).toNat * 256 ^ w) % 256 ^ w = number false f a w := by
          rw [Nat.add_mul_mod_self_right, Nat.mod_eq_of_lt hf]
        have e2 : (number false g a w + (g (a + w)).toNat * 256 ^ w) % 256 ^ w = number false g a w := by
          rw [Nat.add_mul_mod_self_right, Nat.mod_eq_of_lt hg]
        rw [h] at e1
        have e3 := e1.symm.trans e2
        rw [e3] at h
        exact ⟨e3, Nat.eq_of_mul_eq_mul_right hp (Nat.add_left_cancel h)⟩
      · simp only [if_true] at h
        omega
    rcases Nat.lt_succ_iff_lt_or_eq.1 hj with hj | rfl
    · exact number_inj big key.1 j hj
    · exact BitVec.eq_of_toNat_eq key.2

/-- Taking the number apart at its first byte. -/
theorem number_front (big : Bool) (f : Bytes) (a : Nat) : ∀ w, number big f a (w + 1) =
    if big then (f a).toNat * 256 ^ w + number big f (a + 1) w else (f a).toNat + number big f (a + 1) w * 256
  | 0 => by cases big <;> simp [number]
  | w + 1 => by
    rw [number, number_front big f a w]
    cases big
    · simp only [Bool.false_eq_true, if_false, number]
      rw [show a + (w + 1) = a + 1 + w by omega]; ring
    · simp only [if_true, number]
      rw [show a + (w + 1) = a + 1 + w by omega]; ring

theorem number_mirror (big : Bool) : ∀ (w : Nat) {f g : Bytes} {a b : Nat}, (∀ j, j < w → g (b + j) = f (a + (w - 1 - j))) → number big g b w = number (!big) f a w
  | 0, f, g, a, b, h => rfl
  | w + 1, f, g, a, b, h => by
    have e : number big g b w = number (!big) f (a + 1) w := by
      refine number_mirror big w fun j hj => ?_
      rw [h j (by omega)]
      congr 1; omega
    rw [number, number_front, e, h w (by omega)]
    simp only [Nat.add_sub_cancel, Nat.sub_self, Nat.add_zero]
    cases big
    · simp only [Bool.not_false, if_true, Bool.false_eq_true, if_false]; ring
    · simp only [Bool.not_true, if_true, Bool.false_eq_true, if_false]; ring

theorem number_bytes_le {n : Nat} (x : BitVec n) {f : Bytes} {a : Nat} : ∀ w, (∀ j, j < w → f (a + j) = x.extractLsb' (8 * j) 8) → number false f a w = x.toNat % 256 ^ w
  | 0, _ => by simp [number]; omega
  | w + 1, h => by
    rw [number, number_bytes_le x w (fun j hj => h j (by omega)), h w (by omega)]
    simp only [Bool.false_eq_true, if_false, BitVec.extractLsb'_toNat]
    rw [Nat.shiftRight_eq_div_pow, show 2 ^ (8 * w) = 256 ^ w by rw [Nat.pow_mul], show (2 ^ 8 : Nat) = 256 by rfl, Nat.pow_succ, Nat.mod_mul]
    ring

/-- The number stored by an assignment. -/
theorem number_bytes {n : Nat} (big : Bool) (w : Nat) (x : BitVec n) {f : Bytes} {a : Nat} (hn : n ≤ 8 * w) (h : ∀ j, j < w → f (a + j) = byteOf big w x j) :
    number big f a w = x.toNat := by
  have hx : x.toNat % 256 ^ w = x.toNat := by
    apply Nat.mod_eq_of_lt
    calc x.toNat < 2 ^ n := x.isLt
      _ ≤ 2 ^ (8 * w) := Nat.pow_le_pow_right (by decide) hn
      _ = 256 ^ w := by rw [Nat.pow_mul]
  cases big
  · rw [number_bytes_le x w (fun j hj => by rw [h j hj]; unfold byteOf; simp), hx]
  · rw [number_mirror true w (f := fun i => x.extractLsb' (8 * i) 8) (a := 0) (fun j hj => by rw [h j hj]; unfold byteOf; simp), Bool.not_true,
      number_bytes_le x w (fun j hj => by rw [Nat.zero_add]), hx]

theorem number_st {n : Nat} (big : Bool) (w : Nat) (x : BitVec n) (f : Bytes) (a : Nat) (hn : n ≤ 8 * w) : number big (st w big f a x) a w = x.toNat :=
  number_bytes big w x hn fun j hj => by unfold st; rw [if_pos (by omega), Nat.add_sub_cancel_left]

theorem st_other {n : Nat} (big : Bool) (w : Nat) (x : BitVec n) (f : Bytes) (a i : Nat) (h : i < a ∨ a + w ≤ i) : st w big f a x i = f i := by
  unfold st; rw [if_neg (by omega)]

theorem number_st_other {n : Nat} (big big' : Bool) (w : Nat) (x : BitVec n) (f : Bytes) (a b u : Nat) (h : b + u ≤ a ∨ a + w ≤ b) :
    number big' (st w big f a x) b u = number big' f b u := number_congr _ fun j hj => st_other _ _ _ _ _ _ (by omega)

/-- Loads, swapped if byte swapping is compiled in, give the number in the byte order of the device. -/
theorem rev32If_ld (b : Build) (f : Bytes) (a : Nat) : (rev32If b (ld32 b.big f a)).toNat = number b.order f a 4 := by
  unfold rev32If Build.order
  cases hs : b.swap
  · simp only [Bool.false_eq_true, if_false, Bool.bne_false]
    exact (number_bytes _ 4 _ (by omega) fun j hj => (byteOf_ld32 _ _ _ _ hj).symm).symm
  · simp only [if_true, Bool.bne_true]
    exact (number_bytes _ 4 _ (by omega) fun j hj => by rw [byteOf_rev32 _ _ _ hj, Bool.not_not, byteOf_ld32 _ _ _ _ hj]).symm

theorem rev64If_ld (b : Build) (f : Bytes) (a : Nat) : (rev64If b (ld64 b.big f a)).toNat = number b.order f a 8 := by
  unfold rev64If Build.order
  cases hs : b.swap
  · simp only [Bool.false_eq_true, if_false, Bool.bne_false]
    exact (number_bytes _ 8 _ (by omega) fun j hj => (byteOf_ld64 _ _ _ _ hj).symm).symm
  · simp only [if_true, Bool.bne_true]
    exact (number_bytes _ 8 _ (by omega) fun j hj => by rw [byteOf_rev64 _ _ _ hj, Bool.not_not, byteOf_ld64 _ _ _ _ hj]).symm

/-- Storing a value, swapped if byte swapping is compiled in, stores the number in the byte order of the device. -/
theorem number_st_rev32If (b : Build) (x : BitVec 32) (f : Bytes) (a : Nat) : number b.order (st 4 b.big f a (rev32If b x)) a 4 = x.toNat := by
  refine number_bytes _ 4 x (by omega) fun j hj => ?_
  unfold st; rw [if_pos (by omega), Nat.add_sub_cancel_left]
  unfold rev32If Build.order
  cases hs : b.swap
  · simp
  · simp only [if_true, Bool.bne_true]
    exact byteOf_rev32 _ _ _ hj

/-- Swapping members turns numbers of the processor's byte order into numbers of the device's byte order, and back. -/
theorem number_flips (b : Build) {L : List (Nat × Nat)} {a z : Nat} (h : Sorted a L z) (f : Bytes) {x : Nat × Nat} (hx : x ∈ L) :
    number b.order (if b.swap then flips L f else f) x.1 x.2 = number b.big f x.1 x.2 ∧
    number b.big (if b.swap then flips L f else f) x.1 x.2 = number b.order f x.1 x.2 := by
  unfold Build.order
  cases hs : b.swap
  · simp
  · simp only [if_true, Bool.bne_true]
    have key : ∀ c, number c (flips L f) x.1 x.2 = number (!c) f x.1 x.2 := by
      intro c
      refine number_mirror c x.2 fun j hj => ?_
      rw [(flips_spec h f).1 x hx _ (by omega) (by omega), Nat.add_sub_cancel_left]
    refine ⟨?_, key _⟩
    rw [key, Bool.not_not]

theorem other_flips (b : Build) {L : List (Nat × Nat)} {a z : Nat} (h : Sorted a L z) (f : Bytes) {i : Nat} (hi : ¬ InField L i) :
    (if b.swap then flips L f else f) i = f i := by
  split
  · exact (flips_spec h f).2 i hi
  · rfl

end RedFs.Swap
