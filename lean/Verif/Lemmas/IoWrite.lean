import Verif.Lemmas.IoRead
import Verif.Lemmas.Bitmap
set_option linter.unusedSimpArgs false
set_option linter.unusedVariables false
/-!
The functions that modify the volume, on a device that may fail (see `Lemmas/Io.lean`).
-/
namespace RedFs.Io
open RedFs M HasVol Bitmap

variable {c : Conf} {α β : Type} {u v w : Vol}

/-- The block of imap node `k` that is not the committed one, for some `k`. -/
def Spare (c : Conf) (v : Vol) (b : Nat) : Prop :=
  c.inline = false ∧ ∃ k, k < c.nodeCount ∧ b ≠ nodeBlk c (v.mr (!v.cur)) k ∧ ∃ m, b = nodeBlk c m k

/-- `w` may come after `v` in the course of an operation: what is on the device is the same, and more blocks may have been
written (it does not matter whether the blocks for new imap nodes have been). -/
structure Le (c : Conf) (v w : Vol) : Prop where
  base : w.base = v.base
  hist : w.hist = v.hist
  cur : w.cur = v.cur
  comm : w.mr (!v.cur) = v.mr (!v.cur)
  mounted : w.mounted = v.mounted
  mask : w.transMask = v.transMask
  dirty : ∀ b, v.dirty b = true → w.dirty b = true ∨ Spare c v b

theorem branched_iff (v : Vol) (k : Nat) : nodeIsBranched v k = (bitGet (v.mr v.cur).entries k != bitGet (v.mr (!v.cur)).entries k) := by
  unfold nodeIsBranched
  cases v.cur
  · rfl
  · show (bitGet (v.mr false).entries k != bitGet (v.mr true).entries k) = (bitGet (v.mr true).entries k != bitGet (v.mr false).entries k)
    cases bitGet (v.mr false).entries k <;> cases bitGet (v.mr true).entries k <;> rfl

theorem Le.spare (h : Le c v w) {b : Nat} : Spare c w b ↔ Spare c v b := by
  unfold Spare; rw [h.cur, h.comm]
theorem Le.refl (v : Vol) : Le c v v := ⟨rfl, rfl, rfl, rfl, rfl, rfl, fun _ h => Or.inl h⟩
theorem Le.trans (h1 : Le c u v) (h2 : Le c v w) : Le c u w := by
  refine ⟨h2.base.trans h1.base, h2.hist.trans h1.hist, h2.cur.trans h1.cur, ?_, h2.mounted.trans h1.mounted, h2.mask.trans h1.mask, fun b h => ?_⟩
  · have := h2.comm; rw [h1.cur] at this; exact this.trans h1.comm
  · rcases h1.dirty b h with h | h
    · rcases h2.dirty b h with h | h
      · exact Or.inl h
      · exact Or.inr (h1.spare.1 h)
    · exact Or.inr h

theorem le_keeps (c : Conf) : Keeps (Le c) :=
  ⟨Le.refl, Le.trans, fun v b => ⟨rfl, rfl, rfl, rfl, rfl, rfl, fun _ h => Or.inl h⟩, fun v b => ⟨rfl, rfl, rfl, rfl, rfl, rfl, fun _ h => Or.inl h⟩⟩

theorem Le.write (v : Vol) (b : Nat) (x : Blk) : Le c v (v.write b x) :=
  ⟨rfl, rfl, rfl, rfl, rfl, rfl, fun i h => Or.inl (by
    show (if i = b then true else v.dirty i) = true
    rw [h]; exact ite_self _)⟩
theorem Le.discard (v : Vol) (b : Nat) : Le c v (v.discard b) :=
  ⟨rfl, rfl, rfl, rfl, rfl, rfl, fun _ h => Or.inl h⟩
theorem Le.markDirty (v : Vol) (b : Nat) : Le c v (v.markDirty b) := Le.write v b _
theorem Le.branchBuf (v : Vol) (a b : Nat) : Le c v (v.branchBuf a b) := (Le.write v b _).trans (Le.discard _ _)
theorem Le.setWork (v : Vol) (m : Metaroot) : Le c v (v.setWork m) := by
  refine ⟨rfl, rfl, rfl, ?_, rfl, rfl, fun _ h => Or.inl h⟩
  show (if (!v.cur) = v.cur then m else v.mr (!v.cur)) = _
  rw [if_neg (by cases v.cur <;> simp)]
theorem Le.setWorkBack (v : Vol) (m : Metaroot) : Le c (v.setWork m) v := by
  refine ⟨rfl, rfl, rfl, ?_, rfl, rfl, fun _ h => Or.inl h⟩
  show _ = (if (!v.cur) = v.cur then m else v.mr (!v.cur))
  rw [if_neg (by cases v.cur <;> simp)]; rfl
theorem Le.branchedTrue (v : Vol) (b : Bool) : Le c v { v with branched := b } := ⟨rfl, rfl, rfl, rfl, rfl, rfl, fun _ h => Or.inl h⟩
theorem Le.branchedBack (v : Vol) (b : Bool) : Le c { v with branched := b } v := ⟨rfl, rfl, rfl, rfl, rfl, rfl, fun _ h => Or.inl h⟩
theorem Le.almost (v : Vol) (n : Nat) : Le c v { v with almostFree := n } := ⟨rfl, rfl, rfl, rfl, rfl, rfl, fun _ h => Or.inl h⟩
theorem Le.reserved (v : Vol) (b : Bool) : Le c v { v with useReserved := b } := ⟨rfl, rfl, rfl, rfl, rfl, rfl, fun _ h => Or.inl h⟩
theorem Le.reservedBack (v : Vol) (b : Bool) : Le c { v with useReserved := b } v := ⟨rfl, rfl, rfl, rfl, rfl, rfl, fun _ h => Or.inl h⟩
theorem Le.junk (v : Vol) (b n i : Nat) (d : Dev) : Le c v (junkBlocks b n d i v) :=
  ⟨rfl, rfl, rfl, rfl, rfl, rfl, fun x h => Or.inl (by
    show (if b ≤ x ∧ x < b + n then true else v.dirty x) = true
    rw [h]; exact ite_self _)⟩

set_option hygiene false in
macro_rules | `(tactic| tm_leaf) => `(tactic| first
  | exact Tame.modify fun v => Le.write v _ _
  | exact Tame.modify fun v => Le.discard v _
  | exact Tame.modify fun v => Le.markDirty v _
  | exact Tame.modify fun v => Le.branchBuf v _ _
  | exact Tame.modify fun v => Le.setWork v _
  | exact Tame.modify fun v => Le.almost v _
  | exact Tame.modify fun v => Le.branchedTrue v _)

/-! ### imap.c -/

theorem imapNodeBranch_tame (k : Nat) : Tame (Le c) (imapNodeBranch c k) (RedFs.imapNodeBranch c k) := by
  have hR := le_keeps c
  unfold imapNodeBranch RedFs.imapNodeBranch
  tm

theorem imapESet_tame (b : Nat) (a : Bool) : Tame (Le c) (imapESet c b a) (RedFs.imapESet c b a) := by
  have hR := le_keeps c
  unfold imapESet RedFs.imapESet
  dsimp only
  refine Tame.bind hR (imapNodeBranch_tame _) fun nb => ?_
  tm

theorem imapISet_tame (b : Nat) (a : Bool) (hi : c.inline = true) : Tame (Le c) (liftI (imapISet c b a)) (imapISet c b a) := by
  refine .lift fun v => ?_
  show Le c v ((if bitGet v.work.entries (b - c.tableStart) = a then RedFs.critical .efubar else if a = true then _ else _ : VM Unit) v).2
  split
  · exact (le_keeps c).ro v _
  · split
    · exact Le.setWork v _
    · exact Le.setWork v _

theorem imapBlockSet_tame (b : Nat) (a : Bool) : Tame (Le c) (imapBlockSet c b a) (RedFs.imapBlockSet c b a) := by
  have hR := le_keeps c
  unfold imapBlockSet RedFs.imapBlockSet
  refine Tame.bind hR (by tm) fun v => Tame.ite (fun _ => by tm) fun _ => Tame.ite (fun _ => by tm) fun _ => ?_
  refine (Tame.attempt (Tame.ite (fun hi => imapISet_tame b a hi) (fun _ => imapESet_tame b a))).bind hR (fun r => ?_) (fun x hx => ?_)
  · tm
  · have hx : x = .error .eio := hx
    subst hx
    exact After.lift hR (fun v => Le.branchedTrue v _) (fun v => Le.branchedBack v _) (fun _ => rfl) (After.bind hR (After.ofExcept hR rfl))
set_option hygiene false in
macro_rules | `(tactic| tm_leaf) => `(tactic| exact imapBlockSet_tame _ _)

/-- The search on a device that works, as a function on the volume. -/
def findE (c : Conf) (start n s : Nat) : VM Nat := fun v => (RedFs.findFreeE c v start n s, v)

theorem findE_eq (start n s : Nat) : findE c start (n + 1) s = (do
    let v ← M.get
    let bidx := s - c.tableStart
    let k := bidx / c.imapEntries
    let idx := bidx % c.imapEntries
    match v.blk (nodeBlk c v.work k) with
    | .imap cur =>
      if idx % 8 = 0 ∧ cur (idx / 8) = 0xFF#8 then
        let s' := searchWrap c (s + min 8 (c.blockCount - s))
        if s' = start then M.fail .enospc else findE c start n s'
      else if bitGet cur idx = false then
        match v.blk (nodeBlk c v.comm k) with
        | .imap cmt =>
          if bitGet cmt idx = false then pure s
          else
            let s' := searchWrap c (s + 1)
            if s' = start then M.fail .enospc else findE c start n s'
        | _ => M.fail .eio
      else
        let s' := searchWrap c (s + 1)
        if s' = start then M.fail .enospc else findE c start n s'
    | _ => M.fail .eio) := by
  funext v
  show (RedFs.findFreeE c v start (n + 1) s, v) = _
  simp only [run_bind, run_get]
  rw [RedFs.findFreeE]
  dsimp only
  cases v.blk (nodeBlk c v.work ((s - c.tableStart) / c.imapEntries)) with
  | imap cur =>
    dsimp only
    split
    · split <;> rfl
    · split
      · cases v.blk (nodeBlk c v.comm ((s - c.tableStart) / c.imapEntries)) with
        | imap cmt =>
          dsimp only
          split
          · rfl
          · split <;> rfl
        | _ => rfl
      · split <;> rfl
  | _ => rfl

theorem findFreeE_tame (start n s : Nat) : Tame (Le c) (findFreeE c start n s) (findE c start n s) := by
  have hR := le_keeps c
  induction n generalizing s with
  | zero =>
    show Tame (Le c) (M.fail .hang) (M.fail .hang)
    tm
  | succ n ih =>
    rw [findE_eq]
    unfold findFreeE
    refine Tame.bind hR (by tm) fun v => ?_
    dsimp only
    refine Tame.ioNone hR ?_
    cases v.blk (nodeBlk c v.work ((s - c.tableStart) / c.imapEntries)) with
    | imap cur =>
      dsimp only
      refine Tame.ite (fun _ => Tame.ite (fun _ => by tm) (fun _ => ih _)) fun _ => Tame.ite (fun _ => ?_) fun _ => Tame.ite (fun _ => by tm) (fun _ => ih _)
      refine Tame.ioNone hR ?_
      cases v.blk (nodeBlk c v.comm ((s - c.tableStart) / c.imapEntries)) with
      | imap cmt => exact Tame.ite (fun _ => by tm) fun _ => Tame.ite (fun _ => by tm) (fun _ => ih _)
      | _ => exact Tame.fail hR _
    | _ => exact Tame.fail hR _

theorem imapFindFree_tame (start : Nat) : Tame (Le c) (imapFindFree c start) (RedFs.imapFindFree c start) := by
  have hR := le_keeps c
  have e : RedFs.imapFindFree c start = (do
      let v ← M.get
      if start < c.firstAlloc ∨ c.blockCount ≤ start then M.fail .einval
      else if c.inline then M.ofExcept (findFreeI c v start (c.blockCount + 1) start)
      else findE c start (c.blockCount + 1) start) := by
    funext v
    unfold RedFs.imapFindFree
    simp only [run_bind, run_get]
    split
    · rfl
    · split
      · rfl
      · rfl
  rw [e]
  unfold imapFindFree
  refine Tame.bind hR (by tm) fun v => Tame.ite (fun _ => by tm) fun _ => Tame.ite (fun _ => .lift fun s => Le.refl _) fun _ => findFreeE_tame _ _ _

theorem imapAllocBlock_tame : Tame (Le c) (imapAllocBlock c) (RedFs.imapAllocBlock c) := by
  have hR := le_keeps c
  unfold imapAllocBlock RedFs.imapAllocBlock
  refine Tame.bind hR (by tm) fun v => Tame.ite (fun _ => by tm) fun _ => ?_
  refine (imapFindFree_tame _).attempt.bind hR (fun r => ?_) (fun x hx => ?_)
  · rcases r with e | b
    · cases e <;> dsimp only <;> tm
    · tm
  · have hx : x = .error .eio := hx
    subst hx; exact After.fail hR
set_option hygiene false in
macro_rules | `(tactic| tm_leaf) => `(tactic| exact imapAllocBlock_tame)

/-! ### inode.c -/

theorem inodeBitSet_tame (i : Nat) (w a : Bool) : Tame (Le c) (inodeBitSet c i w a) (RedFs.inodeBitSet c i w a) := by
  have hR := le_keeps c
  unfold inodeBitSet RedFs.inodeBitSet
  tm
set_option hygiene false in
macro_rules | `(tactic| tm_leaf) => `(tactic| exact inodeBitSet_tame _ _ _)

theorem inodeBranch_tame (ci : Cinode) : Tame (Le c) (inodeBranch c ci) (RedFs.inodeBranch c ci) := by
  have hR := le_keeps c
  unfold inodeBranch RedFs.inodeBranch
  cases ci.nodeBuf
  · tm
  · tm
theorem inodeMount_tame (i : Nat) (ty : FType) (br : Bool) : Tame (Le c) (inodeMount c i ty br) (RedFs.inodeMount c i ty br) :=
  inodeMount_tame_of (le_keeps c) i ty br fun _ ci => inodeBranch_tame ci
set_option hygiene false in
macro_rules | `(tactic| tm_leaf) => `(tactic| first
  | exact inodeBranch_tame _
  | exact inodeMount_tame _ _ _)

theorem inodeCreate_tame (i p m : Nat) : Tame (Le c) (inodeCreate c i p m) (RedFs.inodeCreate c i p m) := by
  have hR := le_keeps c
  unfold inodeCreate RedFs.inodeCreate
  tm

theorem inodeFree_tame (ci : Cinode) : Tame (Le c) (inodeFree c ci) (RedFs.inodeFree c ci) := by
  have hR := le_keeps c
  unfold inodeFree RedFs.inodeFree
  cases ci.nodeBuf
  · tm
  · tm
set_option hygiene false in
macro_rules | `(tactic| tm_leaf) => `(tactic| first
  | exact inodeCreate_tame _ _ _
  | exact inodeFree_tame _)

end RedFs.Io
