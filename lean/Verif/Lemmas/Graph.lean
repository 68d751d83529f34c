import Verif.Spec.Ns
import Mathlib.Data.List.Nodup
import Mathlib.Tactic.ByContra
import Mathlib.Data.List.Range
import Mathlib.Data.List.Perm.Subperm
set_option linter.unusedVariables false
namespace RedFs

section card
variable {α : Type} {P Q : α → Prop} {n m : Nat}

theorem HasCard.congr (h : HasCard P n) (e : ∀ x, Q x ↔ P x) : HasCard Q n := by
  obtain ⟨l, h1, h2, h3⟩ := h
  exact ⟨l, h1, fun x => (h2 x).trans (e x).symm, h3⟩

theorem HasCard.insert (h : HasCard P n) (a : α) (ha : ¬ P a) (e : ∀ x, Q x ↔ P x ∨ x = a) : HasCard Q (n + 1) := by
  obtain ⟨l, h1, h2, h3⟩ := h
  refine ⟨a :: l, List.nodup_cons.2 ⟨fun h => ha ((h2 a).1 h), h1⟩, fun x => ?_, by simp [h3]⟩
  rw [List.mem_cons, h2, e]; exact or_comm

theorem HasCard.erase [DecidableEq α] (h : HasCard P n) (a : α) (ha : P a) (e : ∀ x, Q x ↔ P x ∧ x ≠ a) : HasCard Q (n - 1) := by
  obtain ⟨l, h1, h2, h3⟩ := h
  refine ⟨l.erase a, h1.erase a, fun x => ?_, by rw [List.length_erase_of_mem ((h2 a).2 ha), h3]⟩
  rw [h1.mem_erase_iff, h2, e]; exact and_comm

theorem HasCard.none (h : HasCard P 0) (x : α) : ¬ P x := by
  obtain ⟨l, h1, h2, h3⟩ := h
  intro hx
  have := List.length_eq_zero_iff.1 h3
  rw [this] at h2
  exact absurd ((h2 x).2 hx) (by simp)

theorem HasCard.empty (h : ∀ x, ¬ P x) : HasCard P 0 := ⟨[], List.nodup_nil, fun x => by simp [h x], rfl⟩

theorem HasCard.some (h : HasCard P n) (hn : 1 ≤ n) : ∃ x, P x := by
  obtain ⟨l, h1, h2, h3⟩ := h
  rcases l with _ | ⟨a, l⟩
  · simp at h3; omega
  · exact ⟨a, (h2 a).1 (by simp)⟩

theorem HasCard.one (h : HasCard P 1) {x y : α} (hx : P x) (hy : P y) : x = y := by
  obtain ⟨l, h1, h2, h3⟩ := h
  obtain ⟨a, rfl⟩ := List.length_eq_one_iff.1 h3
  have := (h2 x).2 hx; have := (h2 y).2 hy
  simp at *; simp [*]

theorem HasCard.unique (h : HasCard P n) (h' : HasCard P m) : n = m := by
  obtain ⟨l, h1, h2, h3⟩ := h
  obtain ⟨l', h1', h2', h3'⟩ := h'
  have : l.Perm l' := (List.perm_ext_iff_of_nodup h1 h1').2 (fun x => (h2 x).trans (h2' x).symm)
  rw [← h3, ← h3', this.length_eq]
end card

namespace Graph
variable {G G' : Graph}

theorem Depth.uniq {x n m : Nat} (h : G.Depth x n) (h' : G.Depth x m) : n = m := by
  induction h generalizing m with
  | root => cases h' with
    | root => rfl
    | step h => exact absurd rfl h
  | step h1 h2 h3 h4 ih => cases h' with
    | root => exact absurd rfl h1
    | step g1 g2 g3 g4 =>
      rw [h2] at g2; cases g2
      rw [ih g4]

/-- The directories from `x` up to the root are distinct and in use. -/
theorem Depth.chain {x n : Nat} (h : G.Depth x n) : ∃ l : List Nat, l.length = n + 1 ∧ l.Nodup ∧ (∀ y ∈ l, y = 2 ∨ (G.node y).isSome = true) ∧ ∀ y ∈ l, ∃ m, m ≤ n ∧ G.Depth y m := by
  induction h with
  | root => exact ⟨[2], rfl, by simp, by simp, fun y hy => by simp at hy; subst hy; exact ⟨0, by omega, .root⟩⟩
  | step h1 h2 h3 h4 ih =>
    rename_i x n nd
    obtain ⟨l, g1, g2, g3, g4⟩ := ih
    refine ⟨x :: l, by simp [g1], List.nodup_cons.2 ⟨fun hx => ?_, g2⟩, ?_, ?_⟩
    · obtain ⟨m, hm, hd⟩ := g4 x hx
      have := hd.uniq (.step h1 h2 h3 h4)
      omega
    · intro y hy
      rcases List.mem_cons.1 hy with rfl | hy
      · right; rw [h2]; rfl
      · exact g3 y hy
    · intro y hy
      rcases List.mem_cons.1 hy with rfl | hy
      · exact ⟨n + 1, by omega, .step h1 h2 h3 h4⟩
      · obtain ⟨m, hm, hd⟩ := g4 y hy
        exact ⟨m, by omega, hd⟩

/-- Pigeonhole: a directory is less deep than the number of inodes. -/
theorem Depth.lt {x n N : Nat} (h : G.Depth x n) (h2 : 1 ≤ N) (hv : ∀ y, (G.node y).isSome = true → 2 ≤ y ∧ y < 2 + N) : n < N := by
  obtain ⟨l, g1, g2, g3, _⟩ := h.chain
  have hs : l ⊆ List.range' 2 N := by
    intro y hy
    rw [List.mem_range'_1]
    rcases g3 y hy with rfl | hy
    · omega
    · exact hv y hy
  have := (List.subperm_of_subset g2 hs).length_le
  rw [List.length_range'] at this
  omega

/-- The root is below nothing else. -/
theorem below_root {i : Nat} (hr : G.node 2 = some ⟨true, 1, 0⟩) (h0 : G.node 0 = none) (h : G.Below i 2) : i = 2 ∨ i = 0 := by
  cases h with
  | refl => exact Or.inl rfl
  | step h1 h2 h3 =>
    rw [hr] at h1; cases h1
    cases h3 with
    | refl => exact Or.inr rfl
    | step g1 => rw [h0] at g1; cases g1

end Graph

open Graph
namespace GraphOk
variable {G G' : Graph}

/-- The one entry of a directory. -/
theorem dir_ref (h : GraphOk G) {i : Nat} {nd : Node} (hi : G.node i = some nd) (hd : nd.dir = true) (h2 : i ≠ 2) : ∃ k, G.slot nd.parent k = some i := by
  obtain ⟨hc, _⟩ := h.nlink i nd hi h2
  rw [h.one i nd hi hd] at hc
  obtain ⟨⟨p, k⟩, hx⟩ := hc.some (Nat.le_refl _)
  have := h.parent p k i nd hx hi hd
  exact ⟨k, by rw [this]; exact hx⟩

/-- A new inode with one name. -/
theorem create (h : GraphOk G) {i p k : Nat} {d : Bool} {nd : Node} (hi : G.node i = none) (hp : G.node p = some nd) (hpd : nd.dir = true) (hk : G.slot p k = none)
    (hn : ∀ j, G'.node j = if j = i then some ⟨d, 1, p⟩ else G.node j)
    (hs : ∀ q m, G'.slot q m = if q = p ∧ m = k then some i else G.slot q m) : GraphOk G' := by
  have hi2 : i ≠ 2 := by rintro rfl; rw [h.root] at hi; cases hi
  have hpi : p ≠ i := by rintro rfl; rw [hi] at hp; cases hp
  have noref : ∀ q m, G.slot q m ≠ some i := by
    intro q m hx
    have := (h.live q m i hx).2; rw [hi] at this; cases this
  have old : ∀ j, j ≠ i → G'.node j = G.node j := fun j hj => by rw [hn, if_neg hj]
  have dep : ∀ x n, G.Depth x n → G'.Depth x n := by
    intro x n hx
    induction hx with
    | root => exact .root
    | step h1 h2 h3 h4 ih => exact .step h1 (by rw [old _ (by rintro rfl; rw [hi] at h2; cases h2)]; exact h2) h3 ih
  refine ⟨by rw [old 2 (fun e => hi2 e.symm)]; exact h.root, ?_, ?_, ?_, ?_, ?_, ?_⟩
  · intro q m j hx
    rw [hs] at hx; split at hx
    · next e => rw [e.1]; exact ⟨nd, by rw [old p hpi]; exact hp, hpd⟩
    · obtain ⟨n', g1, g2⟩ := h.from_ q m j hx
      exact ⟨n', by rw [old q (by rintro rfl; rw [hi] at g1; cases g1)]; exact g1, g2⟩
  · intro q m j hx
    rw [hs] at hx; split at hx
    · cases hx; exact ⟨hi2, by rw [hn, if_pos rfl]; rfl⟩
    · have := h.live q m j hx
      exact ⟨this.1, by rw [old j (by rintro rfl; exact noref _ _ hx)]; exact this.2⟩
  · intro j n' hj hj2
    rw [hn] at hj; split at hj
    · next e =>
      subst e; cases hj
      refine ⟨?_, Nat.le_refl _, by show 1 ≤ 65535; omega⟩
      refine HasCard.insert (HasCard.empty (P := fun _ : Nat × Nat => False) (fun _ => id)) (p, k) id (fun x => ?_)
      obtain ⟨q, m⟩ := x
      unfold Ref; rw [hs]
      constructor
      · intro hx; split at hx
        · next e => right; obtain ⟨rfl, rfl⟩ := e; rfl
        · exact absurd hx (noref _ _)
      · rintro (h | h)
        · exact h.elim
        · cases h; rw [if_pos ⟨rfl, rfl⟩]
    · next e =>
      obtain ⟨c1, c2⟩ := h.nlink j n' hj hj2
      refine ⟨c1.congr (fun x => ?_), c2⟩
      unfold Ref; rw [hs]
      split
      · next e2 =>
        rw [e2.1, e2.2, hk]; simp; intro e3; exact e e3.symm
      · rfl
  · intro j n' hj hd
    rw [hn] at hj; split at hj
    · cases hj; rfl
    · exact h.one j n' hj hd
  · intro q m j n' hx hj hd
    rw [hs] at hx; split at hx
    · next e => cases hx; rw [hn, if_pos rfl] at hj; cases hj; exact e.1.symm
    · rw [old j (by rintro rfl; exact noref _ _ hx)] at hj
      exact h.parent q m j n' hx hj hd
  · intro j n' hj hd
    rw [hn] at hj; split at hj
    · next e =>
      subst e; cases hj
      obtain ⟨n, hdp⟩ := h.tree p nd hp hpd
      exact ⟨n + 1, .step hi2 (by rw [hn, if_pos rfl]) hd (dep _ _ hdp)⟩
    · obtain ⟨n, hx⟩ := h.tree j n' hj hd
      exact ⟨n, dep _ _ hx⟩

/-- One more name for a regular file. -/
theorem link (h : GraphOk G) {i p k : Nat} {nd ni : Node} (hi : G.node i = some ni) (hif : ni.dir = false) (hl : ni.nlink < 65535)
    (hp : G.node p = some nd) (hpd : nd.dir = true) (hk : G.slot p k = none)
    (hn : ∀ j, G'.node j = if j = i then some { ni with nlink := ni.nlink + 1 } else G.node j)
    (hs : ∀ q m, G'.slot q m = if q = p ∧ m = k then some i else G.slot q m) : GraphOk G' := by
  have hi2 : i ≠ 2 := by rintro rfl; rw [h.root] at hi; cases hi; cases hif
  have hpi : p ≠ i := by rintro rfl; rw [hi] at hp; cases hp; rw [hif] at hpd; cases hpd
  have old : ∀ j, j ≠ i → G'.node j = G.node j := fun j hj => by rw [hn, if_neg hj]
  have dirs : ∀ j n', G.node j = some n' → n'.dir = true → G'.node j = some n' := by
    intro j n' g1 g2; rw [old]; exact g1
    rintro rfl; rw [hi] at g1; cases g1; rw [hif] at g2; cases g2
  have dep : ∀ x n, G.Depth x n → G'.Depth x n := by
    intro x n hx
    induction hx with
    | root => exact .root
    | step h1 h2 h3 h4 ih => exact .step h1 (dirs _ _ h2 h3) h3 ih
  have back : ∀ j n', G'.node j = some n' → n'.dir = true → j ≠ i ∧ G.node j = some n' := by
    intro j n' hj hd
    rw [hn] at hj; split at hj
    · cases hj; change ni.dir = true at hd; rw [hif] at hd; cases hd
    · next e => exact ⟨e, hj⟩
  refine ⟨by rw [old 2 (fun e => hi2 e.symm)]; exact h.root, ?_, ?_, ?_, ?_, ?_, ?_⟩
  · intro q m j hx
    rw [hs] at hx; split at hx
    · next e => rw [e.1]; exact ⟨nd, by rw [old p hpi]; exact hp, hpd⟩
    · obtain ⟨n', g1, g2⟩ := h.from_ q m j hx
      exact ⟨n', dirs _ _ g1 g2, g2⟩
  · intro q m j hx
    rw [hs] at hx; split at hx
    · cases hx; exact ⟨hi2, by rw [hn, if_pos rfl]; rfl⟩
    · have := h.live q m j hx
      refine ⟨this.1, ?_⟩
      rw [hn]; split
      · rfl
      · exact this.2
  · intro j n' hj hj2
    rw [hn] at hj; split at hj
    · next e =>
      subst e; cases hj
      obtain ⟨c1, c2⟩ := h.nlink j ni hi hj2
      refine ⟨c1.insert (p, k) (by unfold Ref; rw [hk]; simp) (fun x => ?_), by show 1 ≤ ni.nlink + 1; omega, by show ni.nlink + 1 ≤ _; omega⟩
      obtain ⟨q, m⟩ := x
      unfold Ref; rw [hs]
      constructor
      · intro hx; split at hx
        · next e => right; obtain ⟨rfl, rfl⟩ := e; rfl
        · left; exact hx
      · rintro (h | h)
        · split
          · rfl
          · exact h
        · cases h; rw [if_pos ⟨rfl, rfl⟩]
    · next e =>
      obtain ⟨c1, c2⟩ := h.nlink j n' hj hj2
      refine ⟨c1.congr (fun x => ?_), c2⟩
      unfold Ref; rw [hs]
      split
      · next e2 => rw [e2.1, e2.2, hk]; simp; intro e3; exact e e3.symm
      · rfl
  · intro j n' hj hd
    exact h.one j n' (back j n' hj hd).2 hd
  · intro q m j n' hx hj hd
    obtain ⟨g1, g2⟩ := back j n' hj hd
    rw [hs] at hx; split at hx
    · cases hx; exact absurd rfl g1
    · exact h.parent q m j n' hx g2 hd
  · intro j n' hj hd
    obtain ⟨n, hx⟩ := h.tree j n' (back j n' hj hd).2 hd
    exact ⟨n, dep _ _ hx⟩

/-- One name less; the inode is freed with the last one. -/
theorem unlink (h : GraphOk G) {i p k : Nat} {ni : Node} (hi : G.node i = some ni) (hk : G.slot p k = some i) (he : ∀ m, G.slot i m = none)
    (hn : ∀ j, G'.node j = if j = i then (if 1 < ni.nlink then some { ni with nlink := ni.nlink - 1 } else none) else G.node j)
    (hs : ∀ q m, G'.slot q m = if q = p ∧ m = k then none else G.slot q m) : GraphOk G' := by
  have hi2 : i ≠ 2 := (h.live p k i hk).1
  have old : ∀ j, j ≠ i → G'.node j = G.node j := fun j hj => by rw [hn, if_neg hj]
  obtain ⟨ic, il, iu⟩ := h.nlink i ni hi hi2
  -- if the inode goes, nothing else refers to it
  have last : ¬ 1 < ni.nlink → ∀ q m, G.slot q m = some i → q = p ∧ m = k := by
    intro h1 q m hx
    rw [show ni.nlink = 1 by omega] at ic
    have := ic.one (x := (q, m)) (y := (p, k)) hx hk
    cases this; exact ⟨rfl, rfl⟩
  have big : 1 < ni.nlink → ni.dir = false := by
    intro h1
    cases hd : ni.dir
    · rfl
    · have := h.one i ni hi hd; omega
  have back : ∀ j n', G'.node j = some n' → n'.dir = true → j ≠ i ∧ G.node j = some n' := by
    intro j n' hj hd
    rw [hn] at hj; split at hj
    · split at hj
      · next h1 => cases hj; change ni.dir = true at hd; rw [big h1] at hd; cases hd
      · cases hj
    · next e => exact ⟨e, hj⟩
  have dep : ∀ x n, G.Depth x n → x ≠ i → G'.Depth x n := by
    intro x n hx
    induction hx with
    | root => intro _; exact .root
    | step h1 h2 h3 h4 ih =>
      intro hne
      refine .step h1 (by rw [old _ hne]; exact h2) h3 (ih ?_)
      intro e
      obtain ⟨m, hm⟩ := h.dir_ref h2 h3 h1
      rw [e, he] at hm; cases hm
  refine ⟨by rw [old 2 (fun e => hi2 e.symm)]; exact h.root, ?_, ?_, ?_, ?_, ?_, ?_⟩
  · intro q m j hx
    rw [hs] at hx; split at hx
    · cases hx
    · obtain ⟨n', g1, g2⟩ := h.from_ q m j hx
      exact ⟨n', by rw [old q (by rintro rfl; rw [he] at hx; cases hx)]; exact g1, g2⟩
  · intro q m j hx
    rw [hs] at hx; split at hx
    · cases hx
    · next hne =>
      have := h.live q m j hx
      refine ⟨this.1, ?_⟩
      rw [hn]; split
      · next e =>
        subst e
        by_cases h1 : 1 < ni.nlink
        · rw [if_pos h1]; rfl
        · exact absurd (last h1 q m hx) hne
      · exact this.2
  · intro j n' hj hj2
    rw [hn] at hj; split at hj
    · next e =>
      subst e
      split at hj
      · cases hj
        refine ⟨ic.erase (p, k) hk (fun x => ?_), by show 1 ≤ ni.nlink - 1; omega, by show ni.nlink - 1 ≤ _; omega⟩
        obtain ⟨q, m⟩ := x
        unfold Ref; rw [hs]
        by_cases e : q = p ∧ m = k
        · rw [if_pos e, e.1, e.2]; simp
        · rw [if_neg e]
          constructor
          · intro hx; exact ⟨hx, fun e2 => e (by cases e2; exact ⟨rfl, rfl⟩)⟩
          · intro hx; exact hx.1
      · cases hj
    · next e =>
      obtain ⟨c1, c2⟩ := h.nlink j n' hj hj2
      refine ⟨c1.congr (fun x => ?_), c2⟩
      unfold Ref; rw [hs]
      split
      · next e2 => rw [e2.1, e2.2, hk]; simp; intro e3; exact e e3.symm
      · rfl
  · intro j n' hj hd
    exact h.one j n' (back j n' hj hd).2 hd
  · intro q m j n' hx hj hd
    obtain ⟨g1, g2⟩ := back j n' hj hd
    rw [hs] at hx; split at hx
    · cases hx
    · exact h.parent q m j n' hx g2 hd
  · intro j n' hj hd
    obtain ⟨g1, g2⟩ := back j n' hj hd
    obtain ⟨n, hx⟩ := h.tree j n' g2 hd
    exact ⟨n, dep _ _ hx g1⟩

/-- An entry is moved. -/
theorem move (h : GraphOk G) {i p k p' k' : Nat} {ni nd : Node} (hi : G.node i = some ni) (hk : G.slot p k = some i) (hp : G.node p' = some nd) (hpd : nd.dir = true)
    (hk' : G.slot p' k' = none) (hb : ni.dir = true → ¬ G.Below i p')
    (hn : ∀ j, G'.node j = if j = i then some { ni with parent := p' } else G.node j)
    (hs : ∀ q m, G'.slot q m = if q = p' ∧ m = k' then some i else if q = p ∧ m = k then none else G.slot q m) : GraphOk G' := by
  have hi2 : i ≠ 2 := (h.live p k i hk).1
  have hne : ¬ (p' = p ∧ k' = k) := by rintro ⟨rfl, rfl⟩; rw [hk'] at hk; cases hk
  have old : ∀ j, j ≠ i → G'.node j = G.node j := fun j hj => by rw [hn, if_neg hj]
  have isd : ∀ q n', G.node q = some n' → ∃ n'', G'.node q = some n'' ∧ n''.dir = n'.dir ∧ n''.nlink = n'.nlink ∧ (q ≠ i → n'' = n') := by
    intro q n' hq
    by_cases e : q = i
    · subst e; rw [hi] at hq; cases hq
      exact ⟨{ ni with parent := p' }, by rw [hn, if_pos rfl], rfl, rfl, fun h => absurd rfl h⟩
    · exact ⟨n', by rw [old q e]; exact hq, rfl, rfl, fun _ => rfl⟩
  have back : ∀ q n', G'.node q = some n' → ∃ n'', G.node q = some n'' ∧ n''.dir = n'.dir ∧ n''.nlink = n'.nlink ∧ (q ≠ i → n'' = n') ∧ (q = i → n'.parent = p') := by
    intro q n' hq
    rw [hn] at hq; split at hq
    · next e => cases hq; exact ⟨ni, by rw [e]; exact hi, rfl, rfl, fun h => absurd e h, fun _ => rfl⟩
    · next e => exact ⟨n', hq, rfl, rfl, fun _ => rfl, fun h => absurd h e⟩
  -- directories that are not below `i` keep their depth
  have dep0 : ∀ x n, G.Depth x n → ¬ G.Below i x → G'.Depth x n := by
    intro x n hx
    induction hx with
    | root => intro _; exact .root
    | step h1 h2 h3 h4 ih =>
      intro hnb
      refine .step h1 (by rw [old _ (by rintro rfl; exact hnb .refl)]; exact h2) h3 (ih (fun hb => hnb (.step h2 h3 hb)))
  have dep : ∀ x n, G.Depth x n → ni.dir = true → ∃ m, G'.Depth x m := by
    intro x n hx hd
    obtain ⟨np, hdp⟩ := h.tree p' nd hp hpd
    have hi' : G'.Depth i (np + 1) := .step (nd := { ni with parent := p' }) hi2 (by rw [hn, if_pos rfl]) hd (dep0 _ _ hdp (hb hd))
    induction hx with
    | root => exact ⟨0, .root⟩
    | step h1 h2 h3 h4 ih =>
      rename_i x n nx
      by_cases e : x = i
      · rw [e]; exact ⟨_, hi'⟩
      · obtain ⟨m, hm⟩ := ih
        exact ⟨m + 1, .step h1 (by rw [old _ e]; exact h2) h3 hm⟩
  refine ⟨by rw [old 2 (fun e => hi2 e.symm)]; exact h.root, ?_, ?_, ?_, ?_, ?_, ?_⟩
  · intro q m j hx
    have : ∃ n', G.node q = some n' ∧ n'.dir = true := by
      rw [hs] at hx; split at hx
      · next e => rw [e.1]; exact ⟨nd, hp, hpd⟩
      · split at hx
        · cases hx
        · exact h.from_ q m j hx
    obtain ⟨n', g1, g2⟩ := this
    obtain ⟨n'', g3, g4, _⟩ := isd q n' g1
    exact ⟨n'', g3, g4.trans g2⟩
  · intro q m j hx
    have : j ≠ 2 ∧ (G.node j).isSome = true := by
      rw [hs] at hx; split at hx
      · cases hx; exact ⟨hi2, by rw [hi]; rfl⟩
      · split at hx
        · cases hx
        · exact h.live q m j hx
    refine ⟨this.1, ?_⟩
    obtain ⟨n', hn'⟩ := Option.isSome_iff_exists.1 this.2
    obtain ⟨n'', g, _⟩ := isd j n' hn'
    rw [g]; rfl
  · intro j n' hj hj2
    obtain ⟨n'', g1, g2, g3, _⟩ := back j n' hj
    obtain ⟨c1, c2⟩ := h.nlink j n'' g1 hj2
    rw [g3] at c1 c2
    refine ⟨?_, c2⟩
    by_cases e : j = i
    · subst e
      have hc := (c1.erase (Q := fun x => G.Ref j x ∧ x ≠ (p, k)) (p, k) hk (fun x => Iff.rfl)).insert (Q := G'.Ref j) (p', k')
        (by rintro ⟨h1, _⟩; unfold Ref at h1; rw [hk'] at h1; cases h1) (fun x => by
          obtain ⟨q, m⟩ := x
          unfold Ref; rw [hs]
          by_cases e1 : q = p' ∧ m = k'
          · rw [if_pos e1, e1.1, e1.2]; simp
          · rw [if_neg e1]
            by_cases e2 : q = p ∧ m = k
            · rw [if_pos e2, e2.1, e2.2]; simp; intro h1 h2; exact hne ⟨h1.symm, h2.symm⟩
            · rw [if_neg e2]
              constructor
              · intro hx; exact Or.inl ⟨hx, fun e => e2 (by cases e; exact ⟨rfl, rfl⟩)⟩
              · rintro (hx | hx)
                · exact hx.1
                · exact absurd (by cases hx; exact ⟨rfl, rfl⟩) e1)
      rw [show n'.nlink - 1 + 1 = n'.nlink by omega] at hc
      exact hc
    · refine c1.congr (fun x => ?_)
      unfold Ref; rw [hs]
      split
      · next e2 => rw [e2.1, e2.2, hk']; simp; intro e3; exact e e3.symm
      · split
        · next e2 => rw [e2.1, e2.2, hk]; simp; intro e3; exact e e3.symm
        · rfl
  · intro j n' hj hd
    obtain ⟨n'', g1, g2, g3, _⟩ := back j n' hj
    rw [← g3]; exact h.one j n'' g1 (g2.trans hd)
  · intro q m j n' hx hj hd
    obtain ⟨n'', g1, g2, g3, g4, g5⟩ := back j n' hj
    rw [hs] at hx; split at hx
    · next e => cases hx; rw [g5 rfl]; exact e.1.symm
    · next ne1 =>
      split at hx
      · cases hx
      · next ne2 =>
        by_cases e : j = i
        · subst e
          rw [hi] at g1; cases g1
          have hd' := g2.trans hd
          have c1 := (h.nlink j ni hi hi2).1
          rw [h.one j ni hi hd'] at c1
          have := c1.one (x := (q, m)) (y := (p, k)) hx hk
          cases this; exact absurd ⟨rfl, rfl⟩ ne2
        · rw [← g4 e]; exact h.parent q m j n'' hx g1 (g2.trans hd)
  · intro j n' hj hd
    obtain ⟨n'', g1, g2, g3, _⟩ := back j n' hj
    obtain ⟨n, hx⟩ := h.tree j n'' g1 (g2.trans hd)
    by_cases hdi : ni.dir = true
    · exact dep _ _ hx hdi
    · refine ⟨n, ?_⟩
      -- a regular file has no directories below it
      have : ∀ x n, G.Depth x n → G'.Depth x n := by
        intro x n hx
        induction hx with
        | root => exact .root
        | step h1 h2 h3 h4 ih => exact .step h1 (by rw [old _ (by rintro rfl; rw [hi] at h2; cases h2; exact hdi h3)]; exact h2) h3 ih
      exact this _ _ hx

end GraphOk
end RedFs
