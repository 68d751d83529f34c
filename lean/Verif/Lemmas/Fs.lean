import Verif.Spec.Fs
import Verif.Lemmas.Truncate
set_option linter.unusedSimpArgs false
set_option linter.unusedVariables false
namespace RedFs
open M Bitmap Vol

variable {c : Conf}

/-- A block at level `l` of a tree of an inode. -/
def TreeBlk (l : Nat) (x : Blk) : Prop := lvlOk l x ∧ (l = 0 → x.isData = true)

/-- The blocks of a state are a well-formed file system: every inode has at most one live
block, every allocated block belongs to exactly one position of one inode. -/
structure FsOk (c : Conf) (D : Nat → Blk) (B : Nat → Bool) (nfree : Nat) : Prop where
  one : ∀ i, c.inodeValid i = true → ¬ (B (slotBlk c i false) = true ∧ B (slotBlk c i true) = true)
  live : ∀ i w, c.inodeValid i = true → B (slotBlk c i w) = true → ∃ n, D (slotBlk c i w) = .inode n
  free : nfree = countIn (fun i => !liveIn c B i) 2 (2 + c.inodeCount)
  range : ∀ i p, PosOk c p → treeOf c D B i p ≠ 0 →
    c.firstAlloc ≤ treeOf c D B i p ∧ treeOf c D B i p < c.blockCount ∧ B (treeOf c D B i p) = true
  inj : ∀ i j p q, PosOk c p → PosOk c q → treeOf c D B i p ≠ 0 → treeOf c D B i p = treeOf c D B j q → i = j ∧ p = q
  kind : ∀ i p, PosOk c p → treeOf c D B i p ≠ 0 → TreeBlk (p.lvl c) (D (treeOf c D B i p))
  full : ∀ x, c.firstAlloc ≤ x → x < c.blockCount → B x = true → ∃ i p, PosOk c p ∧ treeOf c D B i p = x
  inside : ∀ i p, PosOk c p → treeOf c D B i p ≠ 0 → p.first c < c.dataBlocks
  node : ∀ i n, inodeAt c D B i = some n → (n.mode = modeReg ∨ n.mode = modeDir) ∧ n.size ≤ c.sizeMax ∧
    Bnd c (treeOf c D B i) n.size ∧
    (c.inodeBlocks = true → n.blocks = countIn (fun b => decide (treeOf c D B i (posOf c b) ≠ 0)) 0 c.dataBlocks)

theorem slot_inj (hc : c.Ok) {i j : Nat} (hi : c.inodeValid i = true) (hj : c.inodeValid j = true) {w w' : Bool}
    (h : slotBlk c i w = slotBlk c j w') : i = j ∧ w = w' := by
  unfold Conf.inodeValid at hi hj
  simp only [Bool.and_eq_true, decide_eq_true_eq] at hi hj
  unfold slotBlk at h
  cases w <;> cases w' <;> simp at h ⊢ <;> omega

theorem slot_inMap (hc : c.Ok) {i : Nat} (hi : c.inodeValid i = true) (w : Bool) : InMap c (slotBlk c i w) := by
  have := slot_range hc hi w; have := hc.fits; exact ⟨by omega, by omega⟩

theorem inodeAt_valid {D : Nat → Blk} {B : Nat → Bool} {i : Nat} {n : InodeNode} (h : inodeAt c D B i = some n) : c.inodeValid i = true := by
  unfold inodeAt at h; split at h
  · assumption
  · cases h

/-- The live copy. -/
theorem inodeAt_some {D : Nat → Blk} {B : Nat → Bool} {i : Nat} {n : InodeNode} (h : inodeAt c D B i = some n) :
    ∃ w, B (slotBlk c i w) = true ∧ D (slotBlk c i w) = .inode n := by
  unfold inodeAt slotOf at h
  split at h
  · by_cases h0 : B (slotBlk c i false) = true
    · rw [if_pos h0] at h
      refine ⟨false, h0, ?_⟩
      simp only at h
      split at h
      · next heq => rw [heq]; injection h with h; rw [h]
      · cases h
    · rw [if_neg h0] at h
      by_cases h1 : B (slotBlk c i true) = true
      · rw [if_pos h1] at h
        refine ⟨true, h1, ?_⟩
        simp only at h
        split at h
        · next heq => rw [heq]; injection h with h; rw [h]
        · cases h
      · rw [if_neg h1] at h; cases h
  · cases h

theorem inodeAt_of {D : Nat → Blk} {B : Nat → Bool} {i : Nat} {n : InodeNode} {w : Bool} (hi : c.inodeValid i = true)
    (ho : ¬ (B (slotBlk c i false) = true ∧ B (slotBlk c i true) = true)) (hb : B (slotBlk c i w) = true)
    (hd : D (slotBlk c i w) = .inode n) : inodeAt c D B i = some n := by
  unfold inodeAt slotOf
  rw [if_pos hi]
  cases w
  · rw [if_pos hb]; simp only [hd]
  · rw [if_neg (fun h => ho ⟨h, hb⟩), if_pos hb]; simp only [hd]

theorem inodeAt_none {D : Nat → Blk} {B : Nat → Bool} {i : Nat} (hb : liveIn c B i = false) : inodeAt c D B i = none := by
  unfold liveIn at hb
  simp only [Bool.or_eq_false_iff] at hb
  unfold inodeAt slotOf
  split
  · rw [hb.1, hb.2]; rfl
  · rfl

theorem inodeAt_congr (hc : c.Ok) {D D' : Nat → Blk} {B B' : Nat → Bool} {i : Nat}
    (hb : c.inodeValid i = true → ∀ w, B' (slotBlk c i w) = B (slotBlk c i w))
    (hd : c.inodeValid i = true → ∀ w, B (slotBlk c i w) = true → D' (slotBlk c i w) = D (slotBlk c i w)) :
    inodeAt c D' B' i = inodeAt c D B i := by
  by_cases hv : c.inodeValid i = true
  · unfold inodeAt slotOf
    rw [if_pos hv, if_pos hv, hb hv false, hb hv true]
    by_cases h0 : B (slotBlk c i false) = true
    · simp only [if_pos h0, hd hv false h0]
    · by_cases h1 : B (slotBlk c i true) = true
      · simp only [if_neg h0, if_pos h1, hd hv true h1]
      · simp only [if_neg h0, if_neg h1]
  · unfold inodeAt; rw [if_neg hv, if_neg hv]

theorem ptr_congr {N N' : Nat → Option InodeNode} {D D' : Nat → Blk} {i : Nat} (hN : N' i = N i)
    (hd : ∀ p, PosOk c p → ptr N D i p ≠ 0 → D' (ptr N D i p) = D (ptr N D i p)) :
    ∀ p, PosOk c p → ptr N' D' i p = ptr N D i p := by
  intro p
  induction p with
  | ent e => intro _; simp only [ptr, entryOf, hN]
  | sub p k ih =>
    intro hp
    simp only [ptr]
    rw [ih hp.1]
    by_cases h0 : ptr N D i p = 0
    · rw [if_pos h0, if_pos h0]
    · rw [if_neg h0, if_neg h0, hd p hp.1 h0]

theorem ptr_none {N : Nat → Option InodeNode} {D : Nat → Blk} {i : Nat} (hN : N i = none) (p : Pos) : ptr N D i p = 0 := by
  induction p with
  | ent e => simp only [ptr, entryOf, hN]
  | sub p k ih => simp only [ptr, ih, if_true]

theorem fileByte_eq (D : Nat → Blk) (B : Nat → Bool) (i off : Nat) :
    fileByte c (inodeAt c D B) D i off = byteAt c D (treeOf c D B i) off := by
  unfold fileByte fileBlk byteAt cont treeOf
  simp only
  split
  · next x h => split at h
                · cases h
                · next h0 => rw [if_neg h0]; injection h with h; rw [h]
  · next h => split at h
              · next h0 => rw [if_pos h0]
              · cases h

theorem Bnd.congr {V V' : Pos → Nat} {n : Nat} (h : Bnd c V n) (hV : ∀ p, PosOk c p → V' p = V p) : Bnd c V' n :=
  fun p hp hn => h p hp (by rw [← hV p hp]; exact hn)

theorem SeekAll.congr (hc : c.Ok) {V V' : Pos → Nat} {ci : Cinode} (h : SeekAll c ci V) (hV : ∀ p, PosOk c p → V' p = V p) : SeekAll c ci V' := by
  intro b hb hi
  obtain ⟨h1, h2⟩ := h b hb hi
  have hp := (posOf_ok hc hb).1
  have hco := coord_posOf hc hb
  refine ⟨fun hl => ?_, fun hl => ?_⟩
  · have h3 := h1 hl
    refine ⟨h3.inited, h3.logical, ?_, h3.pData⟩
    have h4 := h3.pos
    generalize posOf c b = p at *
    cases hco
    · simp only [CohAt] at h4 ⊢; rw [hV _ hp]; exact h4
    · simp only [CohAt] at h4 ⊢; rw [hV _ hp, hV _ hp.1]; exact h4
    · simp only [CohAt] at h4 ⊢; rw [hV _ hp, hV _ hp.1, hV _ hp.1.1]; exact h4
  · have h3 := h2 hl
    generalize posOf c b = p at *
    cases hco
    · trivial
    · simp only [PathPre] at h3 ⊢; rw [hV _ hp.1]; exact h3
    · simp only [PathPre] at h3 ⊢; rw [hV _ hp.1, hV _ hp.1.1]; exact h3

section
variable {D D' : Nat → Blk} {B B' : Nat → Bool} {k : Nat}

/-- A well-formed file system depends only on the blocks in use. -/
theorem FsOk.inodeAt_eq (hc : c.Ok) (hb : ∀ x, InMap c x → B' x = B x) (hd : ∀ x, InMap c x → B x = true → D' x = D x) (i : Nat) :
    inodeAt c D' B' i = inodeAt c D B i :=
  inodeAt_congr hc (fun hv w => hb _ (slot_inMap hc hv w)) (fun hv w h => hd _ (slot_inMap hc hv w) h)

theorem FsOk.tree_eq (hc : c.Ok) (h : FsOk c D B k) (hb : ∀ x, InMap c x → B' x = B x) (hd : ∀ x, InMap c x → B x = true → D' x = D x)
    (i : Nat) {p : Pos} (hp : PosOk c p) : treeOf c D' B' i p = treeOf c D B i p := by
  unfold treeOf
  refine ptr_congr (c := c) (FsOk.inodeAt_eq hc hb hd i) ?_ p hp
  intro q hq hn
  obtain ⟨h1, h2, h3⟩ := h.range i q hq hn
  exact hd _ ⟨by have := Conf.Ok.first_ge c; unfold treeOf at h1; omega, h2⟩ h3

theorem FsOk.congr (hc : c.Ok) (h : FsOk c D B k) (hb : ∀ x, InMap c x → B' x = B x) (hd : ∀ x, InMap c x → B x = true → D' x = D x) :
    FsOk c D' B' k := by
  have hN := FsOk.inodeAt_eq hc hb hd
  have hT := fun i p (hp : PosOk c p) => FsOk.tree_eq hc h hb hd i hp
  have hf := Conf.Ok.first_ge c
  refine { one := ?_, live := ?_, free := ?_, range := ?_, inj := ?_, kind := ?_, full := ?_, inside := ?_, node := ?_ }
  · intro i hi; rw [hb _ (slot_inMap hc hi _), hb _ (slot_inMap hc hi _)]; exact h.one i hi
  · intro i w hi hw
    rw [hb _ (slot_inMap hc hi _)] at hw
    rw [hd _ (slot_inMap hc hi _) hw]; exact h.live i w hi hw
  · rw [h.free]
    apply countIn_congr; intro i h1 h2
    have hi : c.inodeValid i = true := by unfold Conf.inodeValid; simp; omega
    unfold liveIn; rw [hb _ (slot_inMap hc hi _), hb _ (slot_inMap hc hi _)]
  · intro i p hp hn
    rw [hT i p hp] at hn ⊢
    obtain ⟨h1, h2, h3⟩ := h.range i p hp hn
    exact ⟨h1, h2, by rw [hb _ ⟨by omega, h2⟩]; exact h3⟩
  · intro i j p q hp hq hn he
    rw [hT i p hp] at hn; rw [hT i p hp, hT j q hq] at he
    exact h.inj i j p q hp hq hn he
  · intro i p hp hn
    rw [hT i p hp] at hn ⊢
    obtain ⟨h1, h2, h3⟩ := h.range i p hp hn
    rw [hd _ ⟨by omega, h2⟩ h3]; exact h.kind i p hp hn
  · intro x h1 h2 h3
    rw [hb _ ⟨by omega, h2⟩] at h3
    obtain ⟨i, p, hp, e⟩ := h.full x h1 h2 h3
    exact ⟨i, p, hp, by rw [hT i p hp]; exact e⟩
  · intro i p hp hn; rw [hT i p hp] at hn; exact h.inside i p hp hn
  · intro i n hn
    rw [hN] at hn
    obtain ⟨h1, h2, h3, h4⟩ := h.node i n hn
    refine ⟨h1, h2, h3.congr (fun p hp => hT i p hp), fun hib => ?_⟩
    rw [h4 hib]
    apply countIn_congr; intro b _ hb'
    rw [hT i _ (posOf_ok hc hb').1]

theorem fileOf_eq (D : Nat → Blk) (B : Nat → Bool) (i : Nat) :
    fileOf c D B i = (inodeAt c D B i).map fun n =>
      ⟨n.mode, n.nlink, n.pinode, n.size, fun off => if off < n.size then byteAt c D (treeOf c D B i) off else 0⟩ := by
  unfold fileOf
  simp only [fileByte_eq]

theorem fileOf_congr (hc : c.Ok) (h : FsOk c D B k) {i : Nat} (hN : inodeAt c D' B' i = inodeAt c D B i)
    (hT : ∀ p, PosOk c p → treeOf c D' B' i p = treeOf c D B i p)
    (hd : ∀ p, PosOk c p → treeOf c D B i p ≠ 0 → D' (treeOf c D B i p) = D (treeOf c D B i p)) :
    fileOf c D' B' i = fileOf c D B i := by
  rw [fileOf_eq, fileOf_eq, hN]
  cases hn : inodeAt c D B i with
  | none => rfl
  | some n =>
    simp only [Option.map_some, Option.some.injEq, AFile.mk.injEq, true_and]
    funext off
    split
    · next ho =>
      have := (h.node i n hn).2.1
      have hp := (posOf_ok hc (div_lt_data hc (by omega : off < c.sizeMax))).1
      exact byteAt_congr hc (hT _ hp) (fun h0 => hd _ hp h0)
    · rfl

theorem FsOk.fileOf_eq (hc : c.Ok) (h : FsOk c D B k) (hb : ∀ x, InMap c x → B' x = B x) (hd : ∀ x, InMap c x → B x = true → D' x = D x)
    (i : Nat) : fileOf c D' B' i = fileOf c D B i := by
  refine fileOf_congr hc h (FsOk.inodeAt_eq hc hb hd i) (fun p hp => FsOk.tree_eq hc h hb hd i hp) ?_
  intro p hp hn
  obtain ⟨h1, h2, h3⟩ := h.range i p hp hn
  exact hd _ ⟨by have := Conf.Ok.first_ge c; omega, h2⟩ h3
end

/-- The invariant of a mounted volume between operations. -/
structure Wf (c : Conf) (v : Vol) : Prop where
  vol : VolInv c v
  fs : FsOk c v.blk (curBit c v) v.work.freeInodes
  cfs : FsOk c v.blk (cmtBit c v) v.comm.freeInodes

/-- The tree of an inode in the working state. -/
def tree (c : Conf) (v : Vol) (i : Nat) : Pos → Nat := treeOf c v.blk (curBit c v) i
/-- Blocks of other inodes. -/
def Others (c : Conf) (v : Vol) (i : Nat) (x : Nat) : Prop := ∃ j p, j ≠ i ∧ PosOk c p ∧ tree c v j p = x ∧ x ≠ 0

/-- The `CINODE` describes an inode of the working state. -/
structure Mnt (c : Conf) (v : Vol) (ci : Cinode) : Prop where
  ino : c.inodeValid ci.ino = true
  nb : ∃ w, ci.nodeBuf = some (slotBlk c ci.ino w) ∧ curBit c v (slotBlk c ci.ino w) = true ∧
    v.blk (slotBlk c ci.ino w) = .inode ci.node ∧ (ci.branched = true ↔ cmtBit c v (slotBlk c ci.ino w) = false)
  dirty : ci.dirty = true → ci.branched = true
  dir : ci.dir = decide (ci.node.mode = modeDir)
  seek : SeekAll c ci (tree c v ci.ino)

namespace Wf
variable {v v' : Vol}

theorem step_cfs (hc : c.Ok) (h : Wf c v) (s : Step c v v') : FsOk c v'.blk (cmtBit c v') v'.comm.freeInodes := by
  rw [s.comm]
  exact h.cfs.congr hc (fun x hx => s.cbits hc hx) (fun x hx hb => (s.keep x hx hb).1)

theorem step_committed (hc : c.Ok) (h : Wf c v) (s : Step c v v') (i : Nat) : committedFiles c v' i = committedFiles c v i :=
  h.cfs.fileOf_eq hc (fun x hx => s.cbits hc hx) (fun x hx hb => (s.keep x hx hb).1) i

theorem at_mnt (h : Wf c v) {ci : Cinode} (m : Mnt c v ci) : inodeAt c v.blk (curBit c v) ci.ino = some ci.node := by
  obtain ⟨w, _, h2, h3, _⟩ := m.nb
  exact inodeAt_of m.ino (h.fs.one _ m.ino) h2 h3

theorem fok (hc : c.Ok) (h : Wf c v) {ci : Cinode} (m : Mnt c v ci) : FOk c (Others c v ci.ino) ⟨ci, v⟩ (tree c v ci.ino) := by
  have hat := h.at_mnt m
  obtain ⟨w, h1, h2, h3, h4⟩ := m.nb
  obtain ⟨g1, g2, g3, g4⟩ := h.fs.node _ _ hat
  refine ⟨?_, g4, g3, g2, fun b hb h0 => (h.fs.kind _ _ (posOf_ok hc hb).1 h0).2 (posOf_ok hc hb).2.1⟩
  refine { vol := h.vol, ino := m.ino, nb := ⟨w, h1⟩, dirty := ?_, ent := ?_, sub := ?_, zero := fun _ _ hz => hz.elim,
           range := ?_, inj := ?_, kind := ?_, oth := ?_, full := ?_, inside := ?_ }
  · intro hd x hx
    show v.blk x = .inode ci.node ∧ _
    have hx' : ci.nodeBuf = some x := hx
    rw [h1] at hx'; injection hx' with hx'; subst hx'
    exact ⟨h3, h4.1 (m.dirty hd), h2⟩
  · intro e _ _
    show ptr (inodeAt c v.blk (curBit c v)) v.blk ci.ino (.ent e) = ci.node.entries e
    simp only [ptr, entryOf, hat]
  · intro a k _ _; rfl
  · intro p hp hn
    obtain ⟨r1, r2, r3⟩ := h.fs.range _ p hp hn
    refine ⟨r1, r2, r3, ?_⟩
    rintro ⟨j, q, hj, hq, he, _⟩
    exact hj (h.fs.inj _ _ p q hp hq hn he.symm).1.symm
  · intro p q hp hq hn he; exact (h.fs.inj _ _ p q hp hq hn he).2
  · intro p hp hn; exact (h.fs.kind _ p hp hn).1
  · rintro x ⟨j, q, hj, hq, rfl, hn⟩; exact h.fs.range _ q hq hn
  · intro x r1 r2 r3
    obtain ⟨j, p, hp, e⟩ := h.fs.full x r1 r2 r3
    by_cases hj : j = ci.ino
    · subst hj; exact Or.inr ⟨p, hp, e⟩
    · left; refine ⟨j, p, hj, hp, e, ?_⟩
      have := Conf.Ok.table_ge c; have := Conf.Ok.first_ge c; omega
  · intro p hp hn; exact h.fs.inside _ p hp hn

theorem files_mnt (h : Wf c v) {ci : Cinode} (m : Mnt c v ci) : files c v ci.ino = some
    ⟨ci.node.mode, ci.node.nlink, ci.node.pinode, ci.node.size, fun off => if off < ci.node.size then byteAt c v.blk (tree c v ci.ino) off else 0⟩ := by
  unfold files; rw [RedFs.fileOf_eq, h.at_mnt m]; rfl
end Wf

end RedFs
