import Verif.Lemmas.Read
set_option linter.unusedSimpArgs false
set_option linter.unusedVariables false
/-! Counting the blocks that have to be made writable. -/
namespace RedFs
open M Bitmap Vol

/-- The sum of `f` over a list. -/
def sumL {α : Type} (f : α → Nat) : List α → Nat
  | [] => 0
  | a :: l => f a + sumL f l

theorem sumL_congr {α : Type} {f g : α → Nat} : ∀ {l : List α}, (∀ a ∈ l, f a = g a) → sumL f l = sumL g l
  | [], _ => rfl
  | a :: l, h => by
    simp only [sumL]
    rw [h a (by simp), sumL_congr (fun b hb => h b (by simp [hb]))]

theorem sumL_add {α : Type} {f g : α → Nat} : ∀ {l : List α}, sumL (fun a => f a + g a) l = sumL f l + sumL g l
  | [] => rfl
  | a :: l => by simp only [sumL]; rw [sumL_add]; omega

theorem sumL_zero {α : Type} {f : α → Nat} : ∀ {l : List α}, (∀ a ∈ l, f a = 0) → sumL f l = 0
  | [], _ => rfl
  | a :: l, h => by simp only [sumL]; rw [h a (by simp), sumL_zero (fun b hb => h b (by simp [hb]))]

theorem sumL_le {α : Type} {f g : α → Nat} : ∀ {l : List α}, (∀ a ∈ l, f a ≤ g a) → sumL f l ≤ sumL g l
  | [], _ => Nat.le_refl _
  | a :: l, h => by
    simp only [sumL]
    exact Nat.add_le_add (h a (by simp)) (sumL_le (fun b hb => h b (by simp [hb])))

theorem sumL_one {α : Type} {f : α → Nat} : ∀ {l : List α}, (∀ a ∈ l, f a ≤ 1) → sumL f l ≤ l.length
  | [], _ => Nat.le_refl _
  | a :: l, h => by
    simp only [sumL, List.length_cons]
    have := h a (by simp)
    have := sumL_one (l := l) (fun b hb => h b (by simp [hb]))
    omega

theorem sumL_single {α : Type} [DecidableEq α] {f : α → Nat} {q : α} : ∀ {l : List α}, l.Nodup → q ∈ l →
    sumL (fun a => if a = q then f a else 0) l = f q
  | [], _, h => by cases h
  | a :: l, hn, h => by
    rw [List.nodup_cons] at hn
    simp only [sumL]
    by_cases ha : a = q
    · subst ha
      rw [if_pos rfl, sumL_zero, Nat.add_zero]
      intro b hb
      rw [if_neg]; rintro rfl; exact hn.1 hb
    · rw [if_neg ha, sumL_single hn.2 ((List.mem_cons.1 h).resolve_left (fun h => ha h.symm)), Nat.zero_add]

theorem sumL_part {α : Type} [DecidableEq α] {f : α → Nat} {l : List α} (hl : l.Nodup) : ∀ {p : List α}, p.Nodup → (∀ a ∈ p, a ∈ l) →
    sumL (fun a => if a ∈ p then f a else 0) l = sumL f p
  | [], _, _ => sumL_zero (fun a _ => by simp)
  | q :: p, hp, h => by
    rw [List.nodup_cons] at hp
    have e : sumL (fun a => if a ∈ q :: p then f a else 0) l =
        sumL (fun a => (if a = q then f a else 0) + (if a ∈ p then f a else 0)) l := by
      apply sumL_congr
      intro a _
      by_cases h1 : a = q
      · subst h1; rw [if_pos (by simp), if_pos rfl, if_neg hp.1, Nat.add_zero]
      · by_cases h2 : a ∈ p
        · rw [if_pos (by simp [h2]), if_neg h1, if_pos h2, Nat.zero_add]
        · rw [if_neg (by simp [h1, h2]), if_neg h1, if_neg h2]
    rw [e, sumL_add, sumL_single hl (h q (by simp)), sumL_part hl hp.2 (fun a ha => h a (by simp [ha]))]
    rfl

theorem sumL_sub {α : Type} [DecidableEq α] {f : α → Nat} {l p : List α} (hl : l.Nodup) (hp : p.Nodup) (h : ∀ a ∈ p, a ∈ l) :
    sumL f p ≤ sumL f l := by
  rw [← sumL_part hl hp h]
  exact sumL_le (fun a _ => by split <;> omega)

theorem sumL_split {α : Type} [DecidableEq α] {f g : α → Nat} {l p : List α} (hl : l.Nodup) (hp : p.Nodup) (h : ∀ a ∈ p, a ∈ l)
    (h1 : ∀ a ∈ l, a ∉ p → f a = g a) (h2 : ∀ a ∈ p, g a = 0) : sumL f l = sumL g l + sumL f p := by
  rw [← sumL_part hl hp h, ← sumL_add]
  apply sumL_congr
  intro a ha
  by_cases hx : a ∈ p
  · rw [if_pos hx, h2 a hx, Nat.zero_add]
  · rw [if_neg hx, h1 a ha hx, Nat.add_zero]

theorem exists_nodup {α : Type} [DecidableEq α] (P : α → Prop) : ∀ X : List α, ∃ L : List α, L.Nodup ∧ (∀ p, p ∈ L ↔ p ∈ X ∧ P p) ∧ L.length ≤ X.length
  | [] => ⟨[], List.nodup_nil, fun p => by simp, Nat.le_refl _⟩
  | a :: X => by
    obtain ⟨L, h1, h2, h3⟩ := exists_nodup P X
    by_cases h : a ∈ L ∨ ¬ P a
    · refine ⟨L, h1, fun p => ?_, Nat.le_succ_of_le h3⟩
      rw [h2, List.mem_cons]
      constructor
      · rintro ⟨g1, g2⟩; exact ⟨Or.inr g1, g2⟩
      · rintro ⟨rfl | g1, g2⟩
        · exact (h2 p).1 (h.resolve_right (fun hn => hn g2))
        · exact ⟨g1, g2⟩
    · rw [not_or, Classical.not_not] at h
      refine ⟨a :: L, List.nodup_cons.2 ⟨h.1, h1⟩, fun p => ?_, by simpa using h3⟩
      rw [List.mem_cons, List.mem_cons, h2]
      constructor
      · rintro (rfl | ⟨g1, g2⟩)
        · exact ⟨Or.inl rfl, h.2⟩
        · exact ⟨Or.inr g1, g2⟩
      · rintro ⟨rfl | g1, g2⟩
        · exact Or.inl rfl
        · exact Or.inr ⟨g1, g2⟩

/-- A position and the ones above it. -/
def pathL (p : Pos) : List Pos := (anc p >>= anc).toList ++ (anc p).toList ++ [p]

theorem mem_pathL {p x : Pos} : x ∈ pathL p ↔ brSet 2 p x := by
  unfold pathL brSet
  simp [ancI, or_assoc]

theorem pathL_length (p : Pos) : (pathL p).length ≤ 3 := by
  rcases p with e | ⟨e | ⟨e, d⟩, k⟩ <;> simp [pathL, anc]

theorem pos_ne_sub (p : Pos) (k : Nat) : p ≠ .sub p k := by
  intro h
  have := congrArg sizeOf h
  simp at this
  omega
theorem pos_ne_sub2 (p : Pos) (d k : Nat) : p ≠ .sub (.sub p d) k := by
  intro h
  have := congrArg sizeOf h
  simp at this
  omega

theorem nodup_pathL (p : Pos) : (pathL p).Nodup := by
  rcases p with e | ⟨e | ⟨p, d⟩, k⟩
  · simp [pathL, anc]
  · simp [pathL, anc]
  · simp [pathL, anc]
    exact ⟨⟨pos_ne_sub p d, pos_ne_sub2 p d k⟩, fun h => absurd h (pos_ne_sub p d)⟩

variable {c : Conf} {O : Nat → Prop} {s s' s1 s2 : DS} {V V' V1 V2 : Pos → Nat}

/-- The number of blocks to be allocated to make the positions of a list writable. -/
def costL (c : Conf) (s : DS) (V : Pos → Nat) (L : List Pos) : Nat := sumL (costAt c s V) L

theorem brCost_eq (p : Pos) : brCost c s V 2 p = costL c s V (pathL p) := by
  unfold brCost costL pathL
  rcases p with e | ⟨e | ⟨p, d⟩, k⟩ <;> simp [anc, ancI, ancX, costOf, sumL]
  omega

theorem costAt_le1 (p : Pos) : costAt c s V p ≤ 1 := by unfold costAt; split <;> omega
theorem costL_le (L : List Pos) : costL c s V L ≤ L.length := sumL_one (fun a _ => costAt_le1 a)

theorem costL_congr {L : List Pos} (h : ∀ p ∈ L, V' p = V p ∧ (V p ≠ 0 → (NewB c s'.v (V p) ↔ NewB c s.v (V p)))) :
    costL c s' V' L = costL c s V L := by
  apply sumL_congr
  intro p hp
  obtain ⟨h1, h2⟩ := h p hp
  unfold costAt
  rw [h1]
  by_cases h0 : V p = 0
  · simp [h0]
  · simp [h0, h2 h0]

theorem costL_v {s s' : DS} (h : s'.v = s.v) {L : List Pos} : costL c s' V L = costL c s V L := by
  unfold costL costAt
  rw [h]

/-- There is not enough space to make logical block `b` writable. -/
def Short (c : Conf) (s : DS) (V : Pos → Nat) (b : Nat) : Prop := freeBlockCount c s.v < brCost c s V 2 (posOf c b)

/-- If a block could not be made writable then the free blocks did not suffice for the whole path of
some list of positions that includes the block's. -/
theorem Short.lt {b : Nat} (h : Short c s V b) {L : List Pos} (hl : L.Nodup) (hsub : ∀ p, brSet 2 (posOf c b) p → p ∈ L) :
    freeBlockCount c s.v < costL c s V L := by
  unfold Short at h
  rw [brCost_eq] at h
  exact Nat.lt_of_lt_of_le h (sumL_sub hl (nodup_pathL _) (fun a ha => hsub a (mem_pathL.1 ha)))

theorem Short.congr {b : Nat} (h : Short c s V b) (hf : freeBlockCount c s'.v = freeBlockCount c s.v)
    (hn : ∀ p, brSet 2 (posOf c b) p → V' p = V p ∧ (V p ≠ 0 → (NewB c s'.v (V p) ↔ NewB c s.v (V p)))) : Short c s' V' b := by
  unfold Short at h ⊢
  rw [brCost_eq] at h ⊢
  rw [hf, costL_congr (fun p hp => hn p (mem_pathL.1 hp))]
  exact h

end RedFs
