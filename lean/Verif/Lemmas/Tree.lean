import Verif.Lemmas.Branch
import Verif.Lemmas.Pos
set_option linter.unusedSimpArgs false
set_option linter.unusedVariables false
namespace RedFs
open M Bitmap Vol

variable {c : Conf}

/-- The block is a node of the right kind for its level. -/
def lvlOk (l : Nat) (x : Blk) : Prop := (l = 1 → NKind.indir.valid x = true) ∧ (l = 2 → NKind.dindir.valid x = true)

/-- Update of the tree at one position. -/
def upV (V : Pos → Nat) (p : Pos) (q : Nat) : Pos → Nat := fun x => if x = p then q else V x

@[simp] theorem upV_self (V : Pos → Nat) (p : Pos) (q : Nat) : upV V p q p = q := by simp [upV]
theorem upV_ne (V : Pos → Nat) {p x : Pos} (q : Nat) (h : x ≠ p) : upV V p q x = V x := by simp [upV, h]

/-- No position. -/
def noZ : Pos → Prop := fun _ => False

/-- The tree `V` of the file which the `CINODE` describes, on a volume where the blocks of `O` belong to
others.  `Z` is the set of positions whose block has been freed while the pointer to it is still
there. -/
structure FInv (c : Conf) (O : Nat → Prop) (s : DS) (V : Pos → Nat) (Z : Pos → Prop) : Prop where
  vol : VolInv c s.v
  ino : c.inodeValid s.ci.ino = true
  nb : ∃ w, s.ci.nodeBuf = some (slotBlk c s.ci.ino w)
  dirty : s.ci.dirty = true → ∀ x, s.ci.nodeBuf = some x →
    s.v.blk x = .inode s.ci.node ∧ cmtBit c s.v x = false ∧ curBit c s.v x = true
  ent : ∀ e, e < c.inodeEntries → ¬ Z (.ent e) → V (.ent e) = s.ci.node.entries e
  sub : ∀ a k, PosOk c (.sub a k) → ¬ Z (.sub a k) → V (.sub a k) = if V a = 0 then 0 else (s.v.blk (V a)).ptrs k
  zero : ∀ p, PosOk c p → Z p → V p = 0
  range : ∀ p, PosOk c p → V p ≠ 0 → c.firstAlloc ≤ V p ∧ V p < c.blockCount ∧ curBit c s.v (V p) = true ∧ ¬ O (V p)
  inj : ∀ p p', PosOk c p → PosOk c p' → V p ≠ 0 → V p = V p' → p = p'
  kind : ∀ p, PosOk c p → V p ≠ 0 → lvlOk (p.lvl c) (s.v.blk (V p))
  oth : ∀ x, O x → c.firstAlloc ≤ x ∧ x < c.blockCount ∧ curBit c s.v x = true
  full : ∀ x, c.firstAlloc ≤ x → x < c.blockCount → curBit c s.v x = true → O x ∨ ∃ p, PosOk c p ∧ V p = x
  inside : ∀ p, PosOk c p → V p ≠ 0 → p.first c < c.dataBlocks

/-- The block counter of the inode. -/
def Cnt (c : Conf) (s : DS) (V : Pos → Nat) : Prop :=
  c.inodeBlocks = true → s.ci.node.blocks = countIn (fun b => decide (V (posOf c b) ≠ 0)) 0 c.dataBlocks

/-- The parts of a `CINODE` other than the coordinates are equal. -/
structure CiSame (a b : Cinode) : Prop where
  ino : b.ino = a.ino
  dir : b.dir = a.dir
  branched : b.branched = a.branched
  dirty : b.dirty = a.dirty
  nodeBuf : b.nodeBuf = a.nodeBuf
  node : b.node = a.node

theorem CiSame.refl (a : Cinode) : CiSame a a := ⟨rfl, rfl, rfl, rfl, rfl, rfl⟩
theorem CiSame.trans {a b d : Cinode} (h : CiSame a b) (g : CiSame b d) : CiSame a d :=
  ⟨g.ino.trans h.ino, g.dir.trans h.dir, g.branched.trans h.branched, g.dirty.trans h.dirty,
   g.nodeBuf.trans h.nodeBuf, g.node.trans h.node⟩

theorem PosOk.parent {a : Pos} {k : Nat} (h : PosOk c (.sub a k)) : PosOk c a := h.1
theorem sub_ne (a : Pos) (k : Nat) : Pos.sub a k ≠ a := by
  intro h
  have : ∀ p : Pos, ∀ k, Pos.sub p k ≠ p := by
    intro p; induction p with
    | ent e => intro k h; cases h
    | sub p k' ih => intro k h; injection h with h1 h2; exact ih _ h1
  exact this a k h

theorem slot_range (hc : c.Ok) {i : Nat} (hi : c.inodeValid i = true) (w : Bool) :
    c.tableStart ≤ slotBlk c i w ∧ slotBlk c i w < c.firstAlloc := by
  unfold Conf.inodeValid at hi
  simp only [Bool.and_eq_true, decide_eq_true_eq] at hi
  unfold slotBlk Conf.firstAlloc
  constructor
  · omega
  · cases w <;> simp <;> omega

namespace FInv
variable {O : Nat → Prop} {s s' : DS} {V : Pos → Nat} {Z : Pos → Prop}

theorem ci (h : FInv c O s V Z) {ci' : Cinode} (e : CiSame s.ci ci') : FInv c O { s with ci := ci' } V Z where
  vol := h.vol
  ino := by show c.inodeValid ci'.ino = true; rw [e.ino]; exact h.ino
  nb := by show ∃ w, ci'.nodeBuf = some (slotBlk c ci'.ino w); rw [e.ino, e.nodeBuf]; exact h.nb
  dirty := by
    show ci'.dirty = true → ∀ x, ci'.nodeBuf = some x → s.v.blk x = .inode ci'.node ∧ _
    rw [e.dirty, e.nodeBuf, e.node]; exact h.dirty
  ent := by show ∀ e, _ → _ → _ = ci'.node.entries e; rw [e.node]; exact h.ent
  sub := h.sub
  zero := h.zero
  range := h.range
  inj := h.inj
  kind := h.kind
  oth := h.oth
  full := h.full
  inside := h.inside

theorem nb_range (h : FInv c O s V Z) (hc : c.Ok) {x : Nat} (hx : s.ci.nodeBuf = some x) :
    c.tableStart ≤ x ∧ x < c.firstAlloc := by
  obtain ⟨w, e⟩ := h.nb
  rw [hx] at e; injection e with e; subst e
  exact slot_range hc h.ino w

theorem nb_isSome (h : FInv c O s V Z) : ∃ x, s.ci.nodeBuf = some x := by
  obtain ⟨w, e⟩ := h.nb; exact ⟨_, e⟩

theorem inMap (h : FInv c O s V Z) {p : Pos} (hp : PosOk c p) (hn : V p ≠ 0) : InMap c (V p) := by
  have := h.range p hp hn; have := Conf.Ok.first_ge c; exact ⟨by omega, by omega⟩

/-- A child of a position with a block. -/
theorem child (h : FInv c O s V noZ) {a : Pos} {k : Nat} (hp : PosOk c (.sub a k)) (hn : V a ≠ 0) :
    V (.sub a k) = (s.v.blk (V a)).ptrs k := by
  rw [h.sub a k hp (fun h => h), if_neg hn]
theorem child0 (h : FInv c O s V Z) {a : Pos} {k : Nat} (hp : PosOk c (.sub a k)) (hn : V a = 0) : V (.sub a k) = 0 := by
  by_cases hz : Z (.sub a k)
  · exact h.zero _ hp hz
  · rw [h.sub a k hp hz, if_pos hn]

theorem up (h : FInv c O s V Z) {a : Pos} {k : Nat} (hp : PosOk c (.sub a k)) (hn : V (.sub a k) ≠ 0) : V a ≠ 0 :=
  fun e => hn (h.child0 hp e)

/-- Positions may join or leave `Z` when nothing can be told apart. -/
theorem reZ (h : FInv c O s V Z) {Z' : Pos → Prop}
    (h1 : ∀ p, PosOk c p → Z' p → V p = 0)
    (h2 : ∀ p, PosOk c p → Z p → ¬ Z' p → ∃ a k, p = .sub a k ∧ V a = 0) : FInv c O s V Z' where
  vol := h.vol
  ino := h.ino
  nb := h.nb
  dirty := h.dirty
  ent := fun e he hz => by
    by_cases hz0 : Z (.ent e)
    · obtain ⟨a, k, h3, _⟩ := h2 (.ent e) he hz0 hz; cases h3
    · exact h.ent e he hz0
  sub := fun a k hp hz => by
    by_cases hz0 : Z (.sub a k)
    · obtain ⟨a', k', h3, h4⟩ := h2 _ hp hz0 hz
      injection h3 with h5 h6; subst h5
      rw [if_pos h4]; exact h.zero _ hp hz0
    · exact h.sub a k hp hz0
  zero := h1
  range := h.range
  inj := h.inj
  kind := h.kind
  oth := h.oth
  full := h.full
  inside := h.inside

theorem setPtr_ptrs {x : Blk} {l : Nat} (h : lvlOk l x) (hl : l = 1 ∨ l = 2) (k q : Nat) :
    (x.setPtr k q).ptrs = upd x.ptrs k q ∧ lvlOk l (x.setPtr k q) := by
  rcases hl with rfl | rfl
  · have := h.1 rfl
    cases x <;> simp_all [NKind.valid, Blk.setPtr, Blk.ptrs, lvlOk]
  · have := h.2 rfl
    cases x <;> simp_all [NKind.valid, Blk.setPtr, Blk.ptrs, lvlOk]

theorem lvl_le (p : Pos) : p.lvl c ≤ 2 := by
  induction p with
  | ent e => simp only [Pos.lvl]; unfold Conf.height; split; omega; split <;> omega
  | sub p k ih => simp only [Pos.lvl]; omega

theorem lvl_pos {p : Pos} (h : 0 < p.lvl c) : p.lvl c = 1 ∨ p.lvl c = 2 := by
  have := lvl_le (c := c) p; omega

/-- Give position `p` the block `q`, which holds a copy of the node that was there. -/
theorem relink (h : FInv c O s V noZ) {p : Pos} {q : Nat} (hp : PosOk c p) (hin : p.first c < c.dataBlocks)
    (hq : c.firstAlloc ≤ q ∧ q < c.blockCount) (hfresh : q = V p ∨ curBit c s.v q = false)
    (hvol : VolInv c s'.v) (hino : s'.ci.ino = s.ci.ino) (hnb : s'.ci.nodeBuf = s.ci.nodeBuf)
    (hdirty : s'.ci.dirty = true → ∀ x, s'.ci.nodeBuf = some x →
      s'.v.blk x = .inode s'.ci.node ∧ cmtBit c s'.v x = false ∧ curBit c s'.v x = true)
    (hbits : ∀ x, c.firstAlloc ≤ x → x < c.blockCount →
      curBit c s'.v x = (decide (x = q) || (curBit c s.v x && decide (x ≠ V p))))
    (hblk : ∀ x, c.firstAlloc ≤ x → x ≠ q → x ≠ V p → (∀ a k, p = .sub a k → x ≠ V a) → s'.v.blk x = s.v.blk x)
    (hnode : 0 < p.lvl c → lvlOk (p.lvl c) (s'.v.blk q) ∧
      (s'.v.blk q).ptrs = if V p = 0 then (fun _ => 0) else (s.v.blk (V p)).ptrs)
    (hent : ∀ e, p = .ent e → s'.ci.node.entries = upd s.ci.node.entries e q)
    (hent' : (∀ e, p ≠ .ent e) → s'.ci.node.entries = s.ci.node.entries)
    (hpar : ∀ a k, p = .sub a k → V a ≠ 0 ∧ s'.v.blk (V a) = (s.v.blk (V a)).setPtr k q) :
    FInv c O s' (upV V p q) noZ := by
  have hz : 0 < c.firstAlloc := by have := Conf.Ok.table_ge c; have := Conf.Ok.first_ge c; omega
  have hq0 : q ≠ 0 := by omega
  -- `q` is not the block of another position
  have hqne : ∀ p', PosOk c p' → p' ≠ p → V p' ≠ q := by
    intro p' hp' hne e
    have hn : V p' ≠ 0 := by rw [e]; exact hq0
    rcases hfresh with h1 | h1
    · exact hne (h.inj p' p hp' hp hn (e.trans h1))
    · have := (h.range p' hp' hn).2.2.1; rw [e, h1] at this; cases this
  have hVp : ∀ p', PosOk c p' → p' ≠ p → V p' ≠ 0 → V p' ≠ V p := fun p' hp' hne hn e => hne (h.inj p' p hp' hp hn e)
  -- blocks of nodes
  have hsame : ∀ p', PosOk c p' → p' ≠ p → (∀ k, p ≠ .sub p' k) → V p' ≠ 0 → s'.v.blk (V p') = s.v.blk (V p') := by
    intro p' hp' hne hnpar hn
    apply hblk _ (h.range p' hp' hn).1 (hqne p' hp' hne) (hVp p' hp' hne hn)
    intro a k e e2
    subst e
    have := h.inj p' a hp' hp.parent hn e2
    subst this
    exact hnpar k rfl
  have hpar2 : ∀ a k, p = .sub a k → lvlOk (a.lvl c) (s'.v.blk (V a)) ∧ (s'.v.blk (V a)).ptrs = upd (s.v.blk (V a)).ptrs k q := by
    intro a k e
    subst e
    obtain ⟨h1, h2⟩ := hpar a k rfl
    have := setPtr_ptrs (h.kind a hp.parent h1) (lvl_pos hp.2.1) k q
    rw [h2]; exact ⟨this.2, this.1⟩
  refine { vol := hvol, ino := by rw [hino]; exact h.ino, nb := by rw [hino, hnb]; exact h.nb, dirty := hdirty,
           ent := ?_, sub := ?_, zero := fun _ _ hz => hz.elim, range := ?_, inj := ?_, kind := ?_, oth := ?_, full := ?_,
           inside := ?_ }
  · intro e he _
    by_cases e1 : Pos.ent e = p
    · rw [e1, upV_self, hent e e1.symm]; simp [upd]
    · rw [upV_ne V q e1, h.ent e he (fun h => h)]
      by_cases e2 : ∃ e', p = .ent e'
      · obtain ⟨e', rfl⟩ := e2
        have : e ≠ e' := by rintro rfl; exact e1 rfl
        rw [hent e' rfl]; simp [upd, this]
      · rw [hent' (fun e' e3 => e2 ⟨e', e3⟩)]
  · intro a k hpk _
    by_cases e1 : a = p
    · subst e1
      rw [upV_self, if_neg hq0, upV_ne V q (sub_ne a k)]
      rw [(hnode hpk.2.1).2, h.sub a k hpk (fun h => h)]
      split <;> rfl
    · rw [upV_ne V q e1]
      by_cases e2 : Pos.sub a k = p
      · obtain ⟨h1, _⟩ := hpar a k e2.symm
        rw [e2, upV_self, if_neg h1, (hpar2 a k e2.symm).2]; simp [upd]
      · rw [upV_ne V q e2, h.sub a k hpk (fun h => h)]
        by_cases e0 : V a = 0
        · rw [if_pos e0, if_pos e0]
        · rw [if_neg e0, if_neg e0]
          by_cases e3 : ∃ k', p = .sub a k'
          · obtain ⟨k', e3⟩ := e3
            have : k ≠ k' := by rintro rfl; exact e2 e3.symm
            rw [(hpar2 a k' e3).2]; simp [upd, this]
          · rw [hsame a hpk.parent e1 (fun k' e => e3 ⟨k', e⟩) e0]
  · intro p' hp' hn
    by_cases e : p' = p
    · subst e
      rw [upV_self]
      refine ⟨hq.1, hq.2, by rw [hbits q hq.1 hq.2]; simp, ?_⟩
      intro ho
      rcases hfresh with h1 | h1
      · rw [h1] at ho hq0; exact (h.range p' hp' hq0).2.2.2 ho
      · have := (h.oth q ho).2.2; rw [h1] at this; cases this
    · rw [upV_ne V q e] at hn ⊢
      obtain ⟨h1, h2, h3, h4⟩ := h.range p' hp' hn
      refine ⟨h1, h2, ?_, h4⟩
      rw [hbits _ h1 h2, h3]
      simp [hVp p' hp' e hn]
  · intro p1 p2 hp1 hp2 hn he
    by_cases e1 : p1 = p <;> by_cases e2 : p2 = p
    · rw [e1, e2]
    · subst e1; rw [upV_self, upV_ne V q e2] at he; exact absurd he.symm (hqne p2 hp2 e2)
    · subst e2; rw [upV_self, upV_ne V q e1] at he; exact absurd he (hqne p1 hp1 e1)
    · rw [upV_ne V q e1] at hn; rw [upV_ne V q e1, upV_ne V q e2] at he
      exact h.inj p1 p2 hp1 hp2 hn he
  · intro p' hp' hn
    by_cases e : p' = p
    · subst e
      rw [upV_self]
      by_cases hl : 0 < p'.lvl c
      · exact (hnode hl).1
      · constructor <;> intro h0 <;> omega
    · rw [upV_ne V q e] at hn ⊢
      by_cases e3 : ∃ k', p = .sub p' k'
      · obtain ⟨k', e3⟩ := e3
        exact (hpar2 p' k' e3).1
      · rw [hsame p' hp' e (fun k' e => e3 ⟨k', e⟩) hn]; exact h.kind p' hp' hn
  · intro x hx
    obtain ⟨h1, h2, h3⟩ := h.oth x hx
    refine ⟨h1, h2, ?_⟩
    rw [hbits x h1 h2, h3]
    have : x ≠ V p := by
      rintro rfl
      have : V p ≠ 0 := by omega
      exact (h.range p hp this).2.2.2 hx
    simp [this]
  · intro x h1 h2 h3
    rw [hbits x h1 h2] at h3
    simp only [Bool.or_eq_true, decide_eq_true_eq, Bool.and_eq_true] at h3
    rcases h3 with rfl | ⟨h3, h4⟩
    · exact Or.inr ⟨p, hp, upV_self _ _ _⟩
    · rcases h.full x h1 h2 h3 with ho | ⟨p', hp', e⟩
      · exact Or.inl ho
      · refine Or.inr ⟨p', hp', ?_⟩
        rw [upV_ne]
        · exact e
        · rintro rfl; exact h4 e.symm
  · intro p' hp' hn
    by_cases e : p' = p
    · subst e; exact hin
    · rw [upV_ne V q e] at hn; exact h.inside p' hp' hn

/-- Free the block at `p`, which has nothing below it. -/
theorem free (h : FInv c O s V Z) {p : Pos} (hp : PosOk c p) (hn : V p ≠ 0)
    (hch : ∀ k, PosOk c (.sub p k) → V (.sub p k) = 0)
    (hvol : VolInv c s'.v) (hino : s'.ci.ino = s.ci.ino) (hnb : s'.ci.nodeBuf = s.ci.nodeBuf)
    (hdirty : s'.ci.dirty = true → ∀ x, s'.ci.nodeBuf = some x →
      s'.v.blk x = .inode s'.ci.node ∧ cmtBit c s'.v x = false ∧ curBit c s'.v x = true)
    (hbits : ∀ x, c.firstAlloc ≤ x → x < c.blockCount →
      curBit c s'.v x = if x = V p then false else curBit c s.v x)
    (hblk : ∀ x, c.firstAlloc ≤ x → x ≠ V p → s'.v.blk x = s.v.blk x)
    (hent : s'.ci.node.entries = s.ci.node.entries) :
    FInv c O s' (upV V p 0) (fun x => Z x ∨ x = p) := by
  have hVp : ∀ p', PosOk c p' → p' ≠ p → V p' ≠ 0 → V p' ≠ V p := fun p' hp' hne hn e => hne (h.inj p' p hp' hp hn e)
  refine { vol := hvol, ino := by rw [hino]; exact h.ino, nb := by rw [hino, hnb]; exact h.nb, dirty := hdirty,
           ent := ?_, sub := ?_, zero := ?_, range := ?_, inj := ?_, kind := ?_, oth := ?_, full := ?_,
           inside := ?_ }
  · intro e he hz
    have hz1 : ¬ Z (.ent e) := fun h => hz (Or.inl h)
    have hz2 : Pos.ent e ≠ p := fun h => hz (Or.inr h)
    rw [upV_ne V 0 hz2, hent]; exact h.ent e he hz1
  · intro a k hpk hz
    have hz1 : ¬ Z (.sub a k) := fun h => hz (Or.inl h)
    have hz2 : Pos.sub a k ≠ p := fun h => hz (Or.inr h)
    rw [upV_ne V 0 hz2]
    by_cases e : a = p
    · subst e; rw [upV_self, if_pos rfl]; exact hch k hpk
    · rw [upV_ne V 0 e, h.sub a k hpk hz1]
      by_cases e0 : V a = 0
      · rw [if_pos e0, if_pos e0]
      · rw [if_neg e0, if_neg e0, hblk _ (h.range a hpk.parent e0).1 (hVp a hpk.parent e e0)]
  · intro p' hp' hz
    by_cases e : p' = p
    · subst e; exact upV_self _ _ _
    · rw [upV_ne V 0 e]
      rcases hz with hz | hz
      · exact h.zero p' hp' hz
      · exact absurd hz e
  · intro p' hp' hn'
    have e : p' ≠ p := by rintro rfl; exact hn' (upV_self _ _ _)
    rw [upV_ne V 0 e] at hn' ⊢
    obtain ⟨h1, h2, h3, h4⟩ := h.range p' hp' hn'
    refine ⟨h1, h2, ?_, h4⟩
    rw [hbits _ h1 h2, if_neg (hVp p' hp' e hn')]; exact h3
  · intro p1 p2 hp1 hp2 hn1 he
    have e1 : p1 ≠ p := by rintro rfl; exact hn1 (upV_self _ _ _)
    have e2 : p2 ≠ p := by rintro rfl; rw [upV_self] at he; exact hn1 he
    rw [upV_ne V 0 e1] at hn1; rw [upV_ne V 0 e1, upV_ne V 0 e2] at he
    exact h.inj p1 p2 hp1 hp2 hn1 he
  · intro p' hp' hn'
    have e : p' ≠ p := by rintro rfl; exact hn' (upV_self _ _ _)
    rw [upV_ne V 0 e] at hn' ⊢
    rw [hblk _ (h.range p' hp' hn').1 (hVp p' hp' e hn')]; exact h.kind p' hp' hn'
  · intro x hx
    obtain ⟨h1, h2, h3⟩ := h.oth x hx
    refine ⟨h1, h2, ?_⟩
    have : x ≠ V p := by rintro rfl; exact (h.range p hp hn).2.2.2 hx
    rw [hbits x h1 h2, if_neg this]; exact h3
  · intro x h1 h2 h3
    rw [hbits x h1 h2] at h3
    split at h3
    · cases h3
    · next h4 =>
      rcases h.full x h1 h2 h3 with ho | ⟨p', hp', e⟩
      · exact Or.inl ho
      · refine Or.inr ⟨p', hp', ?_⟩
        rw [upV_ne]
        · exact e
        · rintro rfl; exact h4 e.symm
  · intro p' hp' hn'
    have e : p' ≠ p := by rintro rfl; exact hn' (upV_self _ _ _)
    rw [upV_ne V 0 e] at hn'; exact h.inside p' hp' hn'

/-- Zero the pointer to a freed block. -/
theorem clear (h : FInv c O s V Z) {p : Pos} (hp : PosOk c p) (hz : V p = 0)
    (hvol : VolInv c s'.v) (hino : s'.ci.ino = s.ci.ino) (hnb : s'.ci.nodeBuf = s.ci.nodeBuf)
    (hdirty : s'.ci.dirty = true → ∀ x, s'.ci.nodeBuf = some x →
      s'.v.blk x = .inode s'.ci.node ∧ cmtBit c s'.v x = false ∧ curBit c s'.v x = true)
    (hbits : ∀ x, c.firstAlloc ≤ x → x < c.blockCount → curBit c s'.v x = curBit c s.v x)
    (hblk : ∀ x, c.firstAlloc ≤ x → (∀ a k, p = .sub a k → x ≠ V a) → s'.v.blk x = s.v.blk x)
    (hent : ∀ e, p = .ent e → s'.ci.node.entries = upd s.ci.node.entries e 0)
    (hent' : (∀ e, p ≠ .ent e) → s'.ci.node.entries = s.ci.node.entries)
    (hpar : ∀ a k, p = .sub a k → V a ≠ 0 → s'.v.blk (V a) = (s.v.blk (V a)).setPtr k 0) :
    FInv c O s' V (fun x => Z x ∧ x ≠ p) := by
  have hsame : ∀ p', PosOk c p' → (∀ k, p ≠ .sub p' k) → V p' ≠ 0 → s'.v.blk (V p') = s.v.blk (V p') := by
    intro p' hp' hnpar hn
    apply hblk _ (h.range p' hp' hn).1
    intro a k e e2
    subst e
    have := h.inj p' a hp' hp.parent hn e2
    subst this
    exact hnpar k rfl
  have hpar2 : ∀ a k, p = .sub a k → V a ≠ 0 → lvlOk (a.lvl c) (s'.v.blk (V a)) ∧ (s'.v.blk (V a)).ptrs = upd (s.v.blk (V a)).ptrs k 0 := by
    intro a k e hn
    subst e
    have := setPtr_ptrs (h.kind a hp.parent hn) (lvl_pos hp.2.1) k 0
    rw [hpar a k rfl hn]; exact ⟨this.2, this.1⟩
  refine { vol := hvol, ino := by rw [hino]; exact h.ino, nb := by rw [hino, hnb]; exact h.nb, dirty := hdirty,
           ent := ?_, sub := ?_, zero := fun p hp hz => h.zero p hp hz.1, range := ?_, inj := h.inj, kind := ?_, oth := ?_, full := ?_,
           inside := h.inside }
  · intro e he hzz
    by_cases e1 : Pos.ent e = p
    · rw [e1, hz, hent e e1.symm]; simp [upd]
    · rw [h.ent e he (fun h => hzz ⟨h, e1⟩)]
      by_cases e2 : ∃ e', p = .ent e'
      · obtain ⟨e', rfl⟩ := e2
        have : e ≠ e' := by rintro rfl; exact e1 rfl
        rw [hent e' rfl]; simp [upd, this]
      · rw [hent' (fun e' e3 => e2 ⟨e', e3⟩)]
  · intro a k hpk hzz
    by_cases e0 : V a = 0
    · rw [if_pos e0]; exact h.child0 hpk e0
    · rw [if_neg e0]
      by_cases e2 : Pos.sub a k = p
      · rw [e2, (hpar2 a k e2.symm e0).2, hz]; simp [upd]
      · rw [h.sub a k hpk (fun h => hzz ⟨h, e2⟩), if_neg e0]
        by_cases e3 : ∃ k', p = .sub a k'
        · obtain ⟨k', e3⟩ := e3
          have : k ≠ k' := by rintro rfl; exact e2 e3.symm
          rw [(hpar2 a k' e3 e0).2]; simp [upd, this]
        · rw [hsame a hpk.parent (fun k' e => e3 ⟨k', e⟩) e0]
  · intro p' hp' hn
    obtain ⟨h1, h2, h3, h4⟩ := h.range p' hp' hn
    exact ⟨h1, h2, by rw [hbits _ h1 h2]; exact h3, h4⟩
  · intro p' hp' hn
    by_cases e3 : ∃ k', p = .sub p' k'
    · obtain ⟨k', e3⟩ := e3
      exact (hpar2 p' k' e3 hn).1
    · rw [hsame p' hp' (fun k' e => e3 ⟨k', e⟩) hn]; exact h.kind p' hp' hn
  · intro x hx
    obtain ⟨h1, h2, h3⟩ := h.oth x hx
    exact ⟨h1, h2, by rw [hbits x h1 h2]; exact h3⟩
  · intro x h1 h2 h3
    rw [hbits x h1 h2] at h3; exact h.full x h1 h2 h3

/-- Change the contents of data blocks, or inode fields other than the pointers. -/
theorem content (h : FInv c O s V Z)
    (hvol : VolInv c s'.v) (hino : s'.ci.ino = s.ci.ino) (hnb : s'.ci.nodeBuf = s.ci.nodeBuf)
    (hdirty : s'.ci.dirty = true → ∀ x, s'.ci.nodeBuf = some x →
      s'.v.blk x = .inode s'.ci.node ∧ cmtBit c s'.v x = false ∧ curBit c s'.v x = true)
    (hbits : ∀ x, c.firstAlloc ≤ x → x < c.blockCount → curBit c s'.v x = curBit c s.v x)
    (hblk : ∀ p, PosOk c p → 0 < p.lvl c → V p ≠ 0 → s'.v.blk (V p) = s.v.blk (V p))
    (hent : s'.ci.node.entries = s.ci.node.entries) : FInv c O s' V Z where
  vol := hvol
  ino := by rw [hino]; exact h.ino
  nb := by rw [hino, hnb]; exact h.nb
  dirty := hdirty
  ent := by rw [hent]; exact h.ent
  sub := fun a k hp hz => by
    rw [h.sub a k hp hz]
    by_cases e0 : V a = 0
    · rw [if_pos e0, if_pos e0]
    · rw [if_neg e0, if_neg e0, hblk a hp.parent hp.2.1 e0]
  zero := h.zero
  range := fun p' hp' hn => by
    obtain ⟨h1, h2, h3, h4⟩ := h.range p' hp' hn
    exact ⟨h1, h2, by rw [hbits _ h1 h2]; exact h3, h4⟩
  inj := h.inj
  kind := fun p hp hn => by
    by_cases hl : 0 < p.lvl c
    · rw [hblk p hp hl hn]; exact h.kind p hp hn
    · constructor <;> intro h0 <;> omega
  oth := fun x hx => by
    obtain ⟨h1, h2, h3⟩ := h.oth x hx
    exact ⟨h1, h2, by rw [hbits x h1 h2]; exact h3⟩
  full := fun x h1 h2 h3 => h.full x h1 h2 (by rw [hbits x h1 h2] at h3; exact h3)
  inside := h.inside

end FInv

/-- What the file operations leave alone. -/
structure Fr (c : Conf) (O : Nat → Prop) (s s' : DS) : Prop where
  qt : Qt c s.v s'.v
  ino : s'.ci.ino = s.ci.ino
  nodeBuf : s'.ci.nodeBuf = s.ci.nodeBuf
  dirty : s'.ci.dirty = s.ci.dirty
  dir : s'.ci.dir = s.ci.dir
  branched : s'.ci.branched = s.ci.branched
  size : s'.ci.node.size = s.ci.node.size
  mode : s'.ci.node.mode = s.ci.node.mode
  nlink : s'.ci.node.nlink = s.ci.node.nlink
  pinode : s'.ci.node.pinode = s.ci.node.pinode
  oth : ∀ x, O x → s'.v.blk x = s.v.blk x
  tbits : ∀ x, c.tableStart ≤ x → x < c.firstAlloc → curBit c s'.v x = curBit c s.v x
  tblk : ∀ x, c.tableStart ≤ x → x < c.firstAlloc → s.ci.nodeBuf ≠ some x → s'.v.blk x = s.v.blk x

namespace Fr
variable {O : Nat → Prop} {s s1 s2 : DS}
theorem refl (h : VolInv c s.v) : Fr c O s s :=
  ⟨.refl h, rfl, rfl, rfl, rfl, rfl, rfl, rfl, rfl, rfl, fun _ _ => rfl, fun _ _ _ => rfl, fun _ _ _ _ => rfl⟩
theorem trans (hc : c.Ok) (a : Fr c O s s1) (b : Fr c O s1 s2) : Fr c O s s2 where
  qt := a.qt.trans hc b.qt
  ino := b.ino.trans a.ino
  nodeBuf := b.nodeBuf.trans a.nodeBuf
  dirty := b.dirty.trans a.dirty
  dir := b.dir.trans a.dir
  branched := b.branched.trans a.branched
  size := b.size.trans a.size
  mode := b.mode.trans a.mode
  nlink := b.nlink.trans a.nlink
  pinode := b.pinode.trans a.pinode
  oth := fun x hx => (b.oth x hx).trans (a.oth x hx)
  tbits := fun x h1 h2 => (b.tbits x h1 h2).trans (a.tbits x h1 h2)
  tblk := fun x h1 h2 h3 => (b.tblk x h1 h2 (by rw [a.nodeBuf]; exact h3)).trans (a.tblk x h1 h2 h3)
theorem ci (h : VolInv c s.v) {ci' : Cinode} (e : CiSame s.ci ci') : Fr c O s { s with ci := ci' } where
  qt := .refl h
  ino := e.ino
  nodeBuf := e.nodeBuf
  dirty := e.dirty
  dir := e.dir
  branched := e.branched
  size := by show ci'.node.size = _; rw [e.node]
  mode := by show ci'.node.mode = _; rw [e.node]
  nlink := by show ci'.node.nlink = _; rw [e.node]
  pinode := by show ci'.node.pinode = _; rw [e.node]
  oth := fun _ _ => rfl
  tbits := fun _ _ _ => rfl
  tblk := fun _ _ _ _ => rfl
end Fr

end RedFs
