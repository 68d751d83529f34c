import Verif.Lemmas.Cost
set_option linter.unusedSimpArgs false
set_option linter.unusedVariables false
namespace RedFs
open M Bitmap Vol

variable {c : Conf} {O : Nat → Prop} {s s' s1 s2 : DS} {V V' V1 V2 : Pos → Nat} {T T1 T2 : Nat → Prop}

/-- Blocks that the working state does not use. -/
def tot (v : Vol) : Nat := v.work.freeBlocks + v.almostFree

/-- If logical block `b` has a block, it holds file data. -/
def Dat (c : Conf) (D : Nat → Blk) (V : Pos → Nat) (b : Nat) : Prop := V (posOf c b) ≠ 0 → (D (V (posOf c b))).isData = true

/-- A step of a write: the logical blocks of `T` have been given writable blocks. -/
structure WS (c : Conf) (O : Nat → Prop) (s s' : DS) (V V' : Pos → Nat) (T : Nat → Prop) : Prop where
  inv : FInv c O s' V' noZ
  cnt : Cnt c s' V'
  fr : Fr c O s s'
  dom : ∀ b, T b → b < c.dataBlocks
  keep : ∀ b, b < c.dataBlocks → ¬ T b → cont c s'.v.blk V' b = cont c s.v.blk V b ∧ V' (posOf c b) = V (posOf c b) ∧
    (V (posOf c b) ≠ 0 → (NewB c s'.v (V (posOf c b)) ↔ NewB c s.v (V (posOf c b))))
  dat : ∀ b, b < c.dataBlocks → ¬ T b → Dat c s.v.blk V b → Dat c s'.v.blk V' b
  mono : ∀ p, PosOk c p → V p ≠ 0 → V' p ≠ 0
  grow : ∀ p, PosOk c p → V' p ≠ 0 → V p ≠ 0 ∨ ∃ b, T b ∧ V (posOf c b) = 0 ∧ p.first c ≤ b
  new : ∀ b, T b → V' (posOf c b) ≠ 0 ∧ NewB c s'.v (V' (posOf c b))
  keepN : ∀ p, PosOk c p → V p ≠ 0 → NewB c s.v (V p) → V' p ≠ 0 ∧ NewB c s'.v (V' p)
  totLe : tot s'.v ≤ tot s.v
  totEq : (∀ b, T b → V (posOf c b) ≠ 0) → tot s'.v = tot s.v
  rsv : s.v.useReserved = false → tot s'.v = tot s.v ∨ c.reserved ≤ tot s'.v
  /-- The free blocks that are gone are those for which positions of the branches became writable. -/
  pay : ∀ L : List Pos, L.Nodup → (∀ p ∈ L, PosOk c p) → (∀ b, T b → ∀ p, brSet 2 (posOf c b) p → p ∈ L) →
    s'.v.work.freeBlocks + costL c s V L = s.v.work.freeBlocks + costL c s' V' L

namespace WS

theorem of_ro (r : Ro c V s s') (h : FInv c O s V noZ) (hcnt : Cnt c s V) : WS c O s s' V V (fun _ => False) where
  inv := r.inv h
  cnt := r.cnt hcnt
  fr := r.fr h
  dom := fun _ h => h.elim
  keep := fun b _ _ => ⟨by rw [r.v], rfl, fun _ => by rw [r.v]⟩
  dat := fun b _ _ h => by rw [r.v]; exact h
  mono := fun _ _ h => h
  grow := fun _ _ h => Or.inl h
  new := fun _ h => h.elim
  keepN := fun p _ h1 h2 => ⟨h1, by rw [r.v]; exact h2⟩
  totLe := by rw [r.v]; exact Nat.le_refl _
  totEq := fun _ => by rw [r.v]
  rsv := fun _ => Or.inl (by rw [r.v])
  pay := fun L _ _ _ => by rw [costL_v r.v, r.v]

theorem refl (h : FInv c O s V noZ) (hcnt : Cnt c s V) : WS c O s s V V (fun _ => False) where
  inv := h
  cnt := hcnt
  fr := .refl h.vol
  dom := fun _ h => h.elim
  keep := fun b _ _ => ⟨rfl, rfl, fun _ => Iff.rfl⟩
  dat := fun b _ _ h => h
  mono := fun _ _ h => h
  grow := fun _ _ h => Or.inl h
  new := fun _ h => h.elim
  keepN := fun p _ h1 h2 => ⟨h1, h2⟩
  totLe := Nat.le_refl _
  totEq := fun _ => rfl
  rsv := fun _ => Or.inl rfl
  pay := fun L _ _ _ => rfl

theorem weaken (h : WS c O s s1 V V1 T) (e : ∀ b, T b ↔ T1 b) : WS c O s s1 V V1 T1 := by
  have : T = T1 := funext fun p => propext (e p)
  subst this; exact h

theorem trans (hc : c.Ok) (a : WS c O s s1 V V1 T1) (b : WS c O s1 s2 V1 V2 T2) : WS c O s s2 V V2 (fun x => T1 x ∨ T2 x) where
  inv := b.inv
  cnt := b.cnt
  fr := a.fr.trans hc b.fr
  dom := fun x hx => hx.elim (a.dom x) (b.dom x)
  keep := fun x hx hT => by
    rw [not_or] at hT
    obtain ⟨p1, p2, p3⟩ := a.keep x hx hT.1
    obtain ⟨q1, q2, q3⟩ := b.keep x hx hT.2
    refine ⟨q1.trans p1, q2.trans p2, fun hn => ?_⟩
    rw [p2] at q3
    exact (q3 hn).trans (p3 hn)
  dat := fun x hx hT h => b.dat x hx (fun t => hT (Or.inr t)) (a.dat x hx (fun t => hT (Or.inl t)) h)
  mono := fun p hp hn => b.mono p hp (a.mono p hp hn)
  grow := fun p hp hn => by
    rcases b.grow p hp hn with h1 | ⟨x, hx, h0, hf⟩
    · rcases a.grow p hp h1 with h2 | ⟨x, hx, h0, hf⟩
      · exact Or.inl h2
      · exact Or.inr ⟨x, Or.inl hx, h0, hf⟩
    · refine Or.inr ⟨x, Or.inr hx, ?_, hf⟩
      by_cases h : V (posOf c x) = 0
      · exact h
      · exact absurd h0 (a.mono _ (posOf_ok hc (b.dom x hx)).1 h)
  new := fun x hx => by
    by_cases h2 : T2 x
    · exact b.new x h2
    · have h1 : T1 x := hx.resolve_right h2
      obtain ⟨n1, n2⟩ := a.new x h1
      obtain ⟨_, q2, q3⟩ := b.keep x (a.dom x h1) h2
      rw [q2]; exact ⟨n1, (q3 n1).2 n2⟩
  keepN := fun p hp h1 h2 => b.keepN p hp (a.keepN p hp h1 h2).1 (a.keepN p hp h1 h2).2
  totLe := Nat.le_trans b.totLe a.totLe
  totEq := fun h => by
    rw [b.totEq, a.totEq (fun x hx => h x (Or.inl hx))]
    intro x hx
    exact a.mono _ (posOf_ok hc (b.dom x hx)).1 (h x (Or.inr hx))
  rsv := fun hu => by
    rcases b.rsv (by rw [a.fr.qt.useReserved]; exact hu) with h2 | h2
    · rcases a.rsv hu with h1 | h1
      · left; rw [h2, h1]
      · right; rw [h2]; exact h1
    · exact Or.inr h2
  pay := fun L h1 h2 h3 => by
    have e1 := a.pay L h1 h2 (fun x hx => h3 x (Or.inl hx))
    have e2 := b.pay L h1 h2 (fun x hx => h3 x (Or.inr hx))
    omega

end WS

/-- Ancestors of the position of `b`. -/
theorem brSet_first (hc : c.Ok) {b depth : Nat} (hb : b < c.dataBlocks) {x : Pos} (hx : brSet depth (posOf c b) x) :
    x.first c ≤ b ∧ (depth = 2 → ∀ V : Pos → Nat, ∀ O s Z, FInv c O s V Z → V (posOf c b) ≠ 0 → V x ≠ 0) := by
  have hok := posOf_ok hc hb
  obtain ⟨h1, h2, h3⟩ := hok
  unfold brSet at hx
  cases hp : posOf c b with
  | ent e =>
    rw [hp] at hx h3
    rcases hx with (hx | hx) | ⟨_, rfl⟩
    · cases hx
    · unfold ancI anc at hx; split at hx <;> cases hx
    · exact ⟨by omega, fun _ V O s Z _ h => h⟩
  | sub a k =>
    rw [hp] at hx h3 h1
    have f1 := first_parent (c := c) a k
    rcases hx with (hx | hx) | ⟨_, rfl⟩
    · cases a with
      | ent e => cases hx
      | sub a' k' =>
        injection hx with hx; subst hx
        have f2 := first_parent (c := c) a' k'
        exact ⟨by omega, fun _ V O s Z hi h => hi.up h1.1 (hi.up h1 h)⟩
    · unfold ancI at hx
      split at hx
      · injection hx with hx; subst hx
        exact ⟨by omega, fun _ V O s Z hi h => hi.up h1 h⟩
      · cases hx
    · exact ⟨by omega, fun _ V O s Z _ h => h⟩

theorem leaf_ne_anc (hc : c.Ok) {b b' depth : Nat} (hb : b < c.dataBlocks) (hb' : b' < c.dataBlocks)
    (h : brSet depth (posOf c b) (posOf c b')) : depth = 2 ∧ b' = b := by
  have hl := (posOf_ok hc hb').2.1
  have hok := posOf_ok hc hb
  rcases h with (h | h) | ⟨h1, h2⟩
  · cases hpo : posOf c b with
    | ent e => rw [hpo] at h; cases h
    | sub a k =>
      rw [hpo] at h hok
      cases a with
      | ent e => cases h
      | sub a k' => injection h with h; have := hok.1.1.2.1; rw [h] at this; omega
  · unfold ancI at h; split at h
    · cases hpo : posOf c b with
      | ent e => rw [hpo] at h; cases h
      | sub a k =>
        rw [hpo] at h hok
        injection h with h; have := hok.1.2.1; rw [h] at this; omega
    · cases h
  · exact ⟨h1, posOf_inj hc hb' hb h2⟩

theorem BRes.ws (hc : c.Ok) (h : FInv c O s V noZ) {b : Nat} (hb : b < c.dataBlocks) {fB : Bool} (r : BRes c O s s' V V' b 2 fB) :
    WS c O s s' V V' (fun x => x = b) where
  inv := r.inv
  cnt := r.cnt
  fr := r.fr
  dom := fun x hx => hx ▸ hb
  keep := fun x hx hne => by
    have hnL : ¬ brSet 2 (posOf c b) (posOf c x) := fun hL => hne (leaf_ne_anc hc hb hx hL).2
    have hok := posOf_ok hc hx
    have e := r.same _ hnL
    refine ⟨?_, e, fun hn => r.keep _ hok.1 hnL hn⟩
    unfold cont
    rw [e]
    by_cases h0 : V (posOf c x) = 0
    · rw [if_pos h0, if_pos h0]
    · rw [if_neg h0, if_neg h0, r.leaf _ hok.1 hok.2.1 hnL h0]
  dat := fun x hx hne hd hn => by
    have hnL : ¬ brSet 2 (posOf c b) (posOf c x) := fun hL => hne (leaf_ne_anc hc hb hx hL).2
    have hok := posOf_ok hc hx
    have e := r.same _ hnL
    rw [e] at hn ⊢
    rw [r.leaf _ hok.1 hok.2.1 hnL hn]
    exact hd hn
  mono := fun p hp hn => by
    by_cases hL : brSet 2 (posOf c b) p
    · exact (r.new p hL).1
    · rw [r.same p hL]; exact hn
  grow := fun p hp hn => by
    by_cases hL : brSet 2 (posOf c b) p
    · obtain ⟨h1, h2⟩ := brSet_first hc hb hL
      by_cases h0 : V (posOf c b) = 0
      · exact Or.inr ⟨b, rfl, h0, h1⟩
      · exact Or.inl (h2 rfl V O s noZ h h0)
    · rw [r.same p hL] at hn; exact Or.inl hn
  new := fun x hx => by subst hx; exact r.new _ (Or.inr ⟨rfl, rfl⟩)
  keepN := fun p hp h1 h2 => by
    by_cases hL : brSet 2 (posOf c b) p
    · exact r.new p hL
    · rw [r.same p hL]; exact ⟨h1, (r.keep p hp hL h1).2 h2⟩
  totLe := r.totLe
  totEq := fun hT => r.totEq (fun p hL => (brSet_first hc hb hL).2 rfl V O s noZ h (hT b rfl))
  rsv := fun hu => by
    have h1 := r.cost
    have h2 := r.free
    unfold freeBlockCount at h1
    rw [hu] at h1
    simp only [Bool.false_eq_true, if_false] at h1
    by_cases h0 : brCost c s V 2 (posOf c b) = 0
    · left
      apply r.totEq
      intro p hL
      apply Decidable.byContradiction
      intro hn
      have hz : V p = 0 := Decidable.not_not.1 hn
      have : costAt c s V p = 1 := by unfold costAt; simp [hz]
      unfold brCost at h0
      rcases hL with (hL | hL) | ⟨_, hL⟩
      · rw [hL] at h0; simp only [costOf] at h0; omega
      · rw [hL] at h0; simp only [costOf] at h0; omega
      · subst hL
        have : costOf c s V (ancX 2 (posOf c b)) = costAt c s V (posOf c b) := rfl
        omega
    · right; unfold tot; omega
  pay := fun L hl hok hsub => by
    have e := r.free
    rw [brCost_eq] at e
    have e2 : costL c s V L = costL c s' V' L + costL c s V (pathL (posOf c b)) := by
      refine sumL_split hl (nodup_pathL _) (fun p hp => hsub b rfl p (mem_pathL.1 hp)) ?_ ?_
      · intro p hp hn
        have hnL : ¬ brSet 2 (posOf c b) p := fun h => hn (mem_pathL.2 h)
        unfold costAt
        rw [r.same p hnL]
        by_cases h0 : V p = 0
        · simp [h0]
        · simp [h0, r.keep p (hok p hp) hnL h0]
      · intro p hp
        unfold costAt
        rw [if_pos (r.new p (mem_pathL.1 hp))]
    omega

theorem BRes.cont_same (hc : c.Ok) {b : Nat} {fB : Bool} (r : BRes c O s s' V V' b 2 fB) (hf : (fB || s.ci.pData.isSome) = true) :
    cont c s'.v.blk V' b = cont c s.v.blk V b ∧ s'.ci.pData = some (V' (posOf c b)) := by
  have hx := r.data rfl
  have hn := (r.new (posOf c b) (Or.inr ⟨rfl, rfl⟩)).1
  refine ⟨?_, ?_⟩
  · unfold cont
    rw [if_neg hn, hx.blk hf]
    by_cases h0 : V (posOf c b) = 0
    · rw [if_pos h0, if_pos h0]; rfl
    · rw [if_neg h0, if_neg h0]
  · rw [hx.pData, if_pos hf]

/-- Overwriting a data block. -/
theorem WS.poke (hc : c.Ok) (h : FInv c O s V noZ) (hcnt : Cnt c s V) {b : Nat} (hb : b < c.dataBlocks) (hn : V (posOf c b) ≠ 0)
    (hnew : NewB c s.v (V (posOf c b))) (g : Nat → Byte) :
    WS c O s { s with v := s.v.write (V (posOf c b)) (.data g) } V V (fun x => x = b) ∧
    cont c (s.v.write (V (posOf c b)) (.data g)).blk V b = g ∧ Dat c (s.v.write (V (posOf c b)) (.data g)).blk V b := by
  have hok := posOf_ok hc hb
  have hm := h.inMap hok.1 hn
  have hqt : Qt c s.v (s.v.write (V (posOf c b)) (.data g)) :=
    .write hc h.vol _ hm hnew.2 (h.vol.branched_of hnew.1 hnew.2)
  have hf := Conf.Ok.first_ge c
  have hbits : ∀ x, InMap c x → curBit c (s.v.write (V (posOf c b)) (.data g)) x = curBit c s.v x :=
    fun x hx => curBit_write hc hm.1 hx
  have hr := h.range _ hok.1 hn
  refine ⟨{ inv := ?_, cnt := hcnt, fr := ?_, dom := fun x hx => hx ▸ hb, keep := ?_, dat := ?_, mono := fun _ _ h => h, grow := fun _ _ h => Or.inl h,
            new := ?_, keepN := fun p hp h1 h2 => ⟨h1, ?_⟩, totLe := Nat.le_refl _, totEq := fun _ => rfl, rsv := fun _ => Or.inl rfl,
            pay := fun L _ hL _ => ?_ }, ?_, ?_⟩
  · refine h.content (hqt.step.inv hc h.vol) rfl rfl ?_ (fun x h1 h2 => hbits x ⟨by omega, h2⟩) ?_ rfl
    · intro hd x hx
      obtain ⟨d1, d2, d3⟩ := h.dirty hd x hx
      have hxr := h.nb_range hc hx
      have hxm : InMap c x := ⟨hxr.1, by have := hc.fits; omega⟩
      refine ⟨?_, ?_, ?_⟩
      · show (s.v.write (V (posOf c b)) (.data g)).blk x = _
        rw [write_blk, if_neg (by omega)]; exact d1
      · show cmtBit c (s.v.write (V (posOf c b)) (.data g)) x = _
        rw [hqt.step.cbits hc hxm]; exact d2
      · show curBit c (s.v.write (V (posOf c b)) (.data g)) x = _
        rw [hbits x hxm]; exact d3
    · intro p hp hl hnp
      show (s.v.write (V (posOf c b)) (.data g)).blk (V p) = _
      rw [write_blk, if_neg]
      intro e
      have := h.inj _ _ hp hok.1 hnp e
      subst this; omega
  · refine { qt := hqt, ino := rfl, nodeBuf := rfl, dirty := rfl, dir := rfl, branched := rfl, size := rfl, mode := rfl, nlink := rfl,
             pinode := rfl, oth := ?_, tbits := ?_, tblk := ?_ }
    · intro x hx
      show (s.v.write (V (posOf c b)) (.data g)).blk x = _
      rw [write_blk, if_neg]; intro e; exact hr.2.2.2 (e ▸ hx)
    · intro x h1 h2; exact hbits x ⟨h1, by have := hc.fits; omega⟩
    · intro x h1 h2 _
      show (s.v.write (V (posOf c b)) (.data g)).blk x = _
      rw [write_blk, if_neg (by omega)]
  · intro x hx hne
    have hokx := posOf_ok hc hx
    refine ⟨?_, rfl, fun hnx => ?_⟩
    · unfold cont
      by_cases h0 : V (posOf c x) = 0
      · rw [if_pos h0, if_pos h0]
      · rw [if_neg h0, if_neg h0]
        show ((s.v.write (V (posOf c b)) (.data g)).blk (V (posOf c x))).bytes = _
        rw [write_blk, if_neg]
        intro e
        exact hne (posOf_inj hc hx hb (h.inj _ _ hokx.1 hok.1 h0 e))
    · have hmx := h.inMap hokx.1 hnx
      unfold NewB
      rw [hbits _ hmx, hqt.step.cbits hc hmx]
  · intro x hx hne hdx h0
    show ((s.v.write (V (posOf c b)) (.data g)).blk (V (posOf c x))).isData = true
    rw [write_blk, if_neg (fun e => hne (posOf_inj hc hx hb (h.inj _ _ (posOf_ok hc hx).1 hok.1 h0 e)))]
    exact hdx h0
  · intro x hx; subst hx
    refine ⟨hn, ?_⟩
    unfold NewB
    rw [hbits _ hm, hqt.step.cbits hc hm]; exact hnew
  · have hmp := h.inMap hp h1
    unfold NewB
    rw [hbits _ hmp, hqt.step.cbits hc hmp]; exact h2
  · have e : costL c { s with v := s.v.write (V (posOf c b)) (.data g) } V L = costL c s V L := by
      apply costL_congr
      intro p hp
      refine ⟨rfl, fun h1 => ?_⟩
      have hmp := h.inMap (hL p hp) h1
      unfold NewB
      rw [hbits _ hmp, hqt.step.cbits hc hmp]
    rw [e]; rfl
  · unfold cont
    rw [if_neg hn, write_blk, if_pos rfl]; rfl
  · intro _
    rw [write_blk, if_pos rfl]; rfl

/-- Overwriting a data block does not change what is part of the committed state. -/
theorem poke_new (hc : c.Ok) (h : FInv c O s V noZ) {b : Nat} (hb : b < c.dataBlocks) (hn : V (posOf c b) ≠ 0)
    (hnew : NewB c s.v (V (posOf c b))) (g : Nat → Byte) {p : Pos} (hp : PosOk c p) (h1 : V p ≠ 0) :
    NewB c (s.v.write (V (posOf c b)) (.data g)) (V p) ↔ NewB c s.v (V p) := by
  have hok := posOf_ok hc hb
  have hm := h.inMap hok.1 hn
  have hqt : Qt c s.v (s.v.write (V (posOf c b)) (.data g)) :=
    .write hc h.vol _ hm hnew.2 (h.vol.branched_of hnew.1 hnew.2)
  have hmp := h.inMap hp h1
  unfold NewB
  rw [curBit_write hc hm.1 hmp, hqt.step.cbits hc hmp]

/-- Logical block `b` has a block, and neither it nor a node above it is part of the committed state. -/
def NewAt (c : Conf) (v : Vol) (V : Pos → Nat) (b : Nat) : Prop := ∀ p, brSet 2 (posOf c b) p → V p ≠ 0 ∧ NewB c v (V p)

theorem brSet_ok (hc : c.Ok) {b : Nat} (hb : b < c.dataBlocks) {p : Pos} (h : brSet 2 (posOf c b) p) : PosOk c p := by
  have hok := (posOf_ok hc hb).1
  unfold brSet at h
  generalize posOf c b = q at *
  rcases q with e | ⟨e | ⟨e, d⟩, k⟩
  · rcases h with (h | h) | ⟨_, h⟩
    · cases h
    · cases h
    · exact h ▸ hok
  · rcases h with (h | h) | ⟨_, h⟩
    · cases h
    · injection h with h; exact h ▸ hok.1
    · exact h ▸ hok
  · rcases h with (h | h) | ⟨_, h⟩
    · injection h with h; exact h ▸ hok.1.1
    · injection h with h; exact h ▸ hok.1
    · exact h ▸ hok

theorem WS.newAt (hc : c.Ok) (w : WS c O s s' V V' T) {b : Nat} (hb : b < c.dataBlocks) (h : NewAt c s.v V b) : NewAt c s'.v V' b :=
  fun p hp => w.keepN p (brSet_ok hc hb hp) (h p hp).1 (h p hp).2

theorem brCost_v {s s' : DS} (h : s'.v = s.v) {V : Pos → Nat} {d : Nat} {p : Pos} : brCost c s' V d p = brCost c s V d p := by
  unfold brCost costOf costAt
  rw [h]

/-- `SeekInode` and `BranchBlock` for one data block. -/
theorem seekBranch (hc : c.Ok) (h : FInv c O s V noZ) (hd : s.ci.dirty = true) (hcnt : Cnt c s V) (hs : SeekAll c s.ci V) {b : Nat}
    (hb : b < c.dataBlocks) (fB : Bool) :
    ∃ s1, seekData c b s = (.ok (decide (V (posOf c b) ≠ 0)), s1) ∧ Ro c V s s1 ∧
      ((branchBlock c 2 fB s1 = (.error .enospc, s1) ∧ freeBlockCount c s.v < brCost c s V 2 (posOf c b)) ∨
       ∃ V' s2, branchBlock c 2 fB s1 = (.ok (), s2) ∧ WS c O s s2 V V' (fun x => x = b) ∧ Coh c s2.ci V' b ∧
         NewAt c s2.v V' b ∧
         (fB = true → cont c s2.v.blk V' b = cont c s.v.blk V b ∧ s2.ci.pData = some (V' (posOf c b))) ∧
         (fB = false → (s.ci.inited = true → s.ci.logical = b → s.ci.pData = none) → s2.ci.pData = none)) := by
  obtain ⟨s1, e1, hr, hco, hpd⟩ := seekData_ro hc h hb hs
  refine ⟨s1, e1, hr, ?_⟩
  rcases branchBlock_spec hc (hr.inv h) (by rw [hr.ci.dirty]; exact hd) (hr.cnt hcnt) hb hco 2 (Nat.le_refl _) fB with ⟨e, hlt⟩ | ⟨V', s2, e, r⟩
  · exact Or.inl ⟨e, by rw [hr.v, brCost_v hr.v] at hlt; exact hlt⟩
  · refine Or.inr ⟨V', s2, e, ?_, r.coh, r.new, ?_, ?_⟩
    · exact ((WS.of_ro hr h hcnt).trans hc (r.ws hc (hr.inv h) hb)).weaken (by simp)
    · intro hf
      obtain ⟨g1, g2⟩ := r.cont_same hc (by rw [hf]; rfl)
      rw [hr.v] at g1
      exact ⟨g1, g2⟩
    · intro hf hn
      have hp1 : s1.ci.pData = none := by
        rcases hpd with h | ⟨h1, h2, h3⟩
        · exact h
        · rw [h1]; exact hn h2 h3
      rw [(r.data rfl).pData, hf, hp1]; rfl

end RedFs
