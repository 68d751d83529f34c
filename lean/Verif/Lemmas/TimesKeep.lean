import Verif.Model.CoreDir
set_option linter.unusedSimpArgs false
set_option linter.unusedVariables false
/-!
What the operations leave alone: a branched volume stays branched, and operations on a mounted inode do not
change its number, its flags or its buffer.
-/
namespace RedFs.Times
open RedFs M Str

variable {c : Conf} {α β : Type}

/-- A branched volume stays branched. -/
def KB (m : VM α) : Prop := ∀ v, v.branched = true → (m v).2.branched = true
/-- The number, the flags and the buffer of an inode. -/
def Cinode.tag (ci : Cinode) : Nat × Bool × Bool × Option Nat := (ci.ino, ci.branched, ci.dirty, ci.nodeBuf)
/-- ... and the inode keeps its number, flags and buffer. -/
def KD (m : DM α) : Prop := ∀ s, Cinode.tag (m s).2.ci = Cinode.tag s.ci ∧ (s.v.branched = true → (m s).2.v.branched = true)

theorem kb_pure (a : α) : KB (pure a) := fun _ h => h
theorem kb_fail (e : Err) : KB (fail e : VM α) := fun _ h => h
theorem kb_get : KB (get : VM Vol) := fun _ h => h
theorem kb_ofExcept (r : Except Err α) : KB (ofExcept r : VM α) := fun _ h => h
theorem kb_modify {f : Vol → Vol} (hf : ∀ v, (f v).branched = v.branched) : KB (modify f) := fun v h => by
  show (f v).branched = true; rw [hf]; exact h
theorem kb_set : KB (modify fun v => { v with branched := true }) := fun v h => rfl
theorem kb_bind {m : VM α} {f : α → VM β} (h : KB m) (hf : ∀ a, KB (f a)) : KB (m >>= f) := by
  intro v hv
  rw [run_bind]
  have := h v hv
  rcases hm : m v with ⟨r, s'⟩
  rw [hm] at this
  cases r with
  | error e => exact this
  | ok a => exact hf a s' this
theorem kb_attempt {m : VM α} (h : KB m) : KB (attempt m) := fun v hv => by rw [run_attempt]; exact h v hv
theorem kb_ite {p : Prop} [Decidable p] {a b : VM α} (ha : KB a) (hb : KB b) : KB (if p then a else b) := by
  split
  · exact ha
  · exact hb
theorem kb_onCi {ci : Cinode} {m : DM α} (h : KD m) : KB (onCi ci m) := fun v hv => by
  have := (h ⟨ci, v⟩).2 hv
  unfold onCi
  rcases hm : m ⟨ci, v⟩ with ⟨r, s⟩
  rw [hm] at this
  exact this
theorem kb_runCi {ci : Cinode} {m : DM α} (h : KD m) : KB (runCi ci m) := fun v hv => by
  have := (h ⟨ci, v⟩).2 hv
  unfold runCi
  rcases hm : m ⟨ci, v⟩ with ⟨r, s⟩
  rw [hm] at this
  cases r <;> exact this

theorem kd_pure (a : α) : KD (pure a) := fun _ => ⟨rfl, id⟩
theorem kd_fail (e : Err) : KD (fail e : DM α) := fun _ => ⟨rfl, id⟩
theorem kd_get : KD (get : DM DS) := fun _ => ⟨rfl, id⟩
theorem kd_ofExcept (r : Except Err α) : KD (ofExcept r : DM α) := fun _ => ⟨rfl, id⟩
theorem kd_bind {m : DM α} {f : α → DM β} (h : KD m) (hf : ∀ a, KD (f a)) : KD (m >>= f) := by
  intro s
  rw [run_bind]
  have := h s
  rcases hm : m s with ⟨r, s'⟩
  rw [hm] at this
  cases r with
  | error e => exact this
  | ok a => exact ⟨(hf a s').1.trans this.1, fun h => (hf a s').2 (this.2 h)⟩
theorem kd_attempt {m : DM α} (h : KD m) : KD (attempt m) := fun s => by rw [run_attempt]; exact h s
theorem kd_ite {p : Prop} [Decidable p] {a b : DM α} (ha : KD a) (hb : KD b) : KD (if p then a else b) := by
  split
  · exact ha
  · exact hb
theorem kd_onlyIf {p : Prop} [Decidable p] {m : DM α} {d : α} (h : KD m) : KD (onlyIf p m d) := by
  unfold onlyIf; split
  · exact h
  · exact kd_pure d
theorem kd_liftV {m : VM α} (h : KB m) : KD (liftV m) := fun s => by
  have := h s.v
  unfold liftV
  rcases hm : m s.v with ⟨r, v⟩
  rw [hm] at this
  exact ⟨rfl, this⟩
theorem kd_setCi {f : Cinode → Cinode} (h : ∀ ci, Cinode.tag (f ci) = Cinode.tag ci) : KD (setCi f) := fun s => ⟨h _, id⟩
theorem kd_setNode (f : InodeNode → InodeNode) : KD (setNode f) := fun s => by
  refine ⟨rfl, fun h => ?_⟩
  show (DS.setNode s (f s.ci.node)).v.branched = true
  unfold DS.setNode
  dsimp only
  split
  · split <;> exact h
  · exact h

/-- One step; extended below. -/
syntax "kb1" : tactic
macro_rules | `(tactic| kb1) => `(tactic| exact kb_pure ..)
macro_rules | `(tactic| kb1) => `(tactic| exact kb_fail ..)
macro_rules | `(tactic| kb1) => `(tactic| exact kb_get)
macro_rules | `(tactic| kb1) => `(tactic| exact kb_set)
macro_rules | `(tactic| kb1) => `(tactic| exact kb_ofExcept ..)
macro_rules | `(tactic| kb1) => `(tactic| exact kb_modify fun _ => rfl)
macro_rules | `(tactic| kb1) => `(tactic| apply kb_bind)
macro_rules | `(tactic| kb1) => `(tactic| apply kb_attempt)
macro_rules | `(tactic| kb1) => `(tactic| apply kb_ite)
macro_rules | `(tactic| kb1) => `(tactic| apply kb_onCi)
macro_rules | `(tactic| kb1) => `(tactic| apply kb_runCi)
macro_rules | `(tactic| kb1) => `(tactic| exact kd_pure ..)
macro_rules | `(tactic| kb1) => `(tactic| exact kd_fail ..)
macro_rules | `(tactic| kb1) => `(tactic| exact kd_get)
macro_rules | `(tactic| kb1) => `(tactic| exact kd_ofExcept ..)
macro_rules | `(tactic| kb1) => `(tactic| exact kd_setNode ..)
macro_rules | `(tactic| kb1) => `(tactic| exact kd_setCi fun _ => rfl)
macro_rules | `(tactic| kb1) => `(tactic| apply kd_liftV)
macro_rules | `(tactic| kb1) => `(tactic| apply kd_bind)
macro_rules | `(tactic| kb1) => `(tactic| apply kd_attempt)
macro_rules | `(tactic| kb1) => `(tactic| apply kd_ite)
macro_rules | `(tactic| kb1) => `(tactic| apply kd_onlyIf)

macro "kb" : tactic => `(tactic| with_reducible repeat' first | kb1 | assumption | intro _ | split)

/-! ### Blocks and inodes -/

theorem critical_kb (e : Err) : KB (critical e : VM α) := by unfold critical; kb
macro_rules | `(tactic| kb1) => `(tactic| exact critical_kb ..)
theorem criticalAssert_kb {m : VM α} (h : KB m) : KB (criticalAssert m) := by unfold criticalAssert; kb
macro_rules | `(tactic| kb1) => `(tactic| apply criticalAssert_kb)
theorem getImap_kb (b : Nat) : KB (getImap b) := fun v h => by unfold getImap; split <;> exact h
macro_rules | `(tactic| kb1) => `(tactic| exact getImap_kb ..)
theorem imapIGet_kb (m : Bool) (b : Nat) : KB (imapIGet c m b) := by unfold imapIGet; kb
macro_rules | `(tactic| kb1) => `(tactic| exact imapIGet_kb ..)
theorem imapEGet_kb (m : Bool) (b : Nat) : KB (imapEGet c m b) := by unfold imapEGet; kb
macro_rules | `(tactic| kb1) => `(tactic| exact imapEGet_kb ..)
theorem imapBlockGet_kb (m : Bool) (b : Nat) : KB (imapBlockGet c m b) := by unfold imapBlockGet; kb
macro_rules | `(tactic| kb1) => `(tactic| exact imapBlockGet_kb ..)
theorem imapISet_kb (b : Nat) (a : Bool) : KB (imapISet c b a) := by unfold imapISet; kb
macro_rules | `(tactic| kb1) => `(tactic| exact imapISet_kb ..)
theorem imapNodeBranch_kb (k : Nat) : KB (imapNodeBranch c k) := by unfold imapNodeBranch; kb
macro_rules | `(tactic| kb1) => `(tactic| exact imapNodeBranch_kb ..)
theorem imapESet_kb (b : Nat) (a : Bool) : KB (imapESet c b a) := by unfold imapESet; kb
macro_rules | `(tactic| kb1) => `(tactic| exact imapESet_kb ..)
theorem imapBlockSet_kb (b : Nat) (a : Bool) : KB (imapBlockSet c b a) := by unfold imapBlockSet; kb
macro_rules | `(tactic| kb1) => `(tactic| exact imapBlockSet_kb ..)
theorem imapFindFree_kb (s : Nat) : KB (imapFindFree c s) := by unfold imapFindFree; kb
macro_rules | `(tactic| kb1) => `(tactic| exact imapFindFree_kb ..)
theorem imapAllocBlock_kb : KB (imapAllocBlock c) := by unfold imapAllocBlock; kb
macro_rules | `(tactic| kb1) => `(tactic| exact imapAllocBlock_kb ..)
theorem imapBlockState_kb (b : Nat) : KB (imapBlockState c b) := by unfold imapBlockState; kb
macro_rules | `(tactic| kb1) => `(tactic| exact imapBlockState_kb ..)

theorem inodeBitGet_kb (m : Bool) (i : Nat) (w : Bool) : KB (inodeBitGet c m i w) := by unfold inodeBitGet; kb
macro_rules | `(tactic| kb1) => `(tactic| exact inodeBitGet_kb ..)
theorem inodeBitSet_kb (i : Nat) (w a : Bool) : KB (inodeBitSet c i w a) := by unfold inodeBitSet; kb
macro_rules | `(tactic| kb1) => `(tactic| exact inodeBitSet_kb ..)
theorem inodeCurrentCopy_kb (i : Nat) : KB (inodeCurrentCopy c i) := by unfold inodeCurrentCopy; kb
macro_rules | `(tactic| kb1) => `(tactic| exact inodeCurrentCopy_kb ..)
theorem inodeWriteableCopy_kb (i : Nat) : KB (inodeWriteableCopy c i) := by unfold inodeWriteableCopy; kb
macro_rules | `(tactic| kb1) => `(tactic| exact inodeWriteableCopy_kb ..)
theorem inodeIsFree_kb (i : Nat) : KB (inodeIsFree c i) := by unfold inodeIsFree; kb
macro_rules | `(tactic| kb1) => `(tactic| exact inodeIsFree_kb ..)
theorem inodeFindLoop_kb : ∀ n i, KB (inodeFindLoop c n i) := by
  intro n
  induction n with
  | zero => intro i; exact kb_pure _
  | succ n ih => intro i; have := ih (i + 1); unfold inodeFindLoop; kb
macro_rules | `(tactic| kb1) => `(tactic| exact inodeFindLoop_kb ..)
theorem inodeFindFree_kb : KB (inodeFindFree c) := by unfold inodeFindFree; kb
macro_rules | `(tactic| kb1) => `(tactic| exact inodeFindFree_kb ..)
theorem inodeIsBranched_kb (i : Nat) : KB (inodeIsBranched c i) := by unfold inodeIsBranched; kb
macro_rules | `(tactic| kb1) => `(tactic| exact inodeIsBranched_kb ..)
theorem getInodeBuf_kb (b : Nat) : KB (getInodeBuf b) := fun v h => by unfold getInodeBuf; split <;> exact h
macro_rules | `(tactic| kb1) => `(tactic| exact getInodeBuf_kb ..)
theorem inodeBranch_kb (ci : Cinode) : KB (inodeBranch c ci) := by unfold inodeBranch; kb
macro_rules | `(tactic| kb1) => `(tactic| exact inodeBranch_kb ..)
theorem inodeMount_kb (i : Nat) (t : FType) (b : Bool) : KB (inodeMount c i t b) := by unfold inodeMount; kb
macro_rules | `(tactic| kb1) => `(tactic| exact inodeMount_kb ..)
theorem inodeCreate_kb (i p m : Nat) : KB (inodeCreate c i p m) := by unfold inodeCreate; kb
macro_rules | `(tactic| kb1) => `(tactic| exact inodeCreate_kb ..)
theorem inodeFree_kb (ci : Cinode) : KB (inodeFree c ci) := by unfold inodeFree; kb
macro_rules | `(tactic| kb1) => `(tactic| exact inodeFree_kb ..)

/-! ### Data -/

theorem setPtr_kb (x k q : Nat) : KB (setPtr x k q) := by unfold setPtr; kb
macro_rules | `(tactic| kb1) => `(tactic| exact setPtr_kb ..)
theorem setOwner_kb (x o : Nat) : KB (setOwner x o) := by unfold setOwner; kb
macro_rules | `(tactic| kb1) => `(tactic| exact setOwner_kb ..)
theorem getBuf_kb (k : NKind) (b : Nat) : KB (getBuf k b) := fun v h => by unfold getBuf; split <;> exact h
macro_rules | `(tactic| kb1) => `(tactic| exact getBuf_kb ..)
theorem seekCi_tag (ci : Cinode) (b : Nat) : Cinode.tag (seekCi c ci b) = Cinode.tag ci := by
  unfold seekCi
  split
  · rfl
  split
  · dsimp only; split <;> rfl
  · dsimp only; split
    · rfl
    · split <;> rfl
macro_rules | `(tactic| kb1) => `(tactic| exact kd_setCi fun _ => seekCi_tag _ _)
theorem seekCoord_kd (b : Nat) : KD (seekCoord c b) := by unfold seekCoord; kb
macro_rules | `(tactic| kb1) => `(tactic| exact seekCoord_kd ..)
theorem seekDindir_kd : KD seekDindir := by unfold seekDindir; kb
macro_rules | `(tactic| kb1) => `(tactic| exact seekDindir_kd ..)
theorem seekIndir_kd : KD seekIndir := by unfold seekIndir; kb
macro_rules | `(tactic| kb1) => `(tactic| exact seekIndir_kd ..)
theorem seekInode_kd (b : Nat) : KD (seekInode c b) := by unfold seekInode; kb
macro_rules | `(tactic| kb1) => `(tactic| exact seekInode_kd ..)
theorem seekData_kd (b : Nat) : KD (seekData c b) := by unfold seekData; kb
macro_rules | `(tactic| kb1) => `(tactic| exact seekData_kd ..)
theorem seekAndRead_kd (b : Nat) : KD (seekAndRead c b) := by unfold seekAndRead; kb
macro_rules | `(tactic| kb1) => `(tactic| exact seekAndRead_kd ..)
theorem isNew_kb (b : Nat) : KB (isNew c b) := by unfold isNew; kb
macro_rules | `(tactic| kb1) => `(tactic| exact isNew_kb ..)
theorem branchCost_kb (ci : Cinode) (d : Nat) : KB (branchCost c ci d) := by unfold branchCost; kb
macro_rules | `(tactic| kb1) => `(tactic| exact branchCost_kb ..)
theorem branchOne_kb (p : Nat) (b : Option (Option Nat)) (k : NKind) : KB (branchOne c p b k) := by unfold branchOne; kb
macro_rules | `(tactic| kb1) => `(tactic| exact branchOne_kb ..)
theorem branchDindir_kd : KD (branchDindir c) := by unfold branchDindir; kb
macro_rules | `(tactic| kb1) => `(tactic| exact branchDindir_kd ..)
theorem branchIndir_kd (d : Nat) : KD (branchIndir c d) := by unfold branchIndir; kb
macro_rules | `(tactic| kb1) => `(tactic| exact branchIndir_kd ..)
theorem branchData_kd (d : Nat) (b : Bool) : KD (branchData c d b) := by unfold branchData; kb
macro_rules | `(tactic| kb1) => `(tactic| exact branchData_kd ..)
theorem criticalAssertD_kd {m : DM α} (h : KD m) : KD (criticalAssertD m) := by unfold criticalAssertD; kb
macro_rules | `(tactic| kb1) => `(tactic| apply criticalAssertD_kd)
theorem branchBlock_kd (d : Nat) (b : Bool) : KD (branchBlock c d b) := by unfold branchBlock; kb
macro_rules | `(tactic| kb1) => `(tactic| exact branchBlock_kd ..)

theorem readUnaligned_kd (s l : Nat) : KD (readUnaligned c s l) := by unfold readUnaligned; kb
macro_rules | `(tactic| kb1) => `(tactic| exact readUnaligned_kd ..)
theorem extentLoop_kd (s f : Nat) : ∀ n r, KD (extentLoop c s f n r) := by
  intro n
  induction n with
  | zero => intro r; exact kd_pure _
  | succ n ih => intro r; have := ih (r + 1); unfold extentLoop; kb
macro_rules | `(tactic| kb1) => `(tactic| exact extentLoop_kd ..)
theorem getExtent_kd (s l : Nat) : KD (getExtent c s l) := by unfold getExtent; kb
macro_rules | `(tactic| kb1) => `(tactic| exact getExtent_kd ..)
theorem readAligned_kd (s n : Nat) : ∀ k i, KD (readAligned c s n k i) := by
  intro k
  induction k with
  | zero => intro i; unfold readAligned; kb
  | succ k ih =>
    intro i; unfold readAligned
    with_reducible repeat' first | kb1 | exact ih _ | intro _ | split
macro_rules | `(tactic| kb1) => `(tactic| exact readAligned_kd ..)
theorem readParts_kd (a b n r : Nat) : KD (readParts c a b n r) := by unfold readParts; kb
macro_rules | `(tactic| kb1) => `(tactic| exact readParts_kd ..)
theorem dataRead_kd (s l : Nat) : KD (dataRead c s l) := by unfold dataRead; kb
macro_rules | `(tactic| kb1) => `(tactic| exact dataRead_kd ..)

theorem pokeData_kd (a b : Nat) (f : Nat → Byte) : KD (pokeData a b f) := by unfold pokeData; kb
macro_rules | `(tactic| kb1) => `(tactic| exact pokeData_kd ..)
theorem expandPrepare_kd : KD (expandPrepare c) := by unfold expandPrepare; kb
macro_rules | `(tactic| kb1) => `(tactic| exact expandPrepare_kd ..)
theorem writeUnaligned_kd (s l : Nat) (f : Nat → Byte) : KD (writeUnaligned c s l f) := by unfold writeUnaligned; kb
macro_rules | `(tactic| kb1) => `(tactic| exact writeUnaligned_kd ..)
theorem collect_kd (start : Nat) : ∀ n i next es el, KD (collect c start n i next es el) := by
  intro n
  induction n with
  | zero => intro i next es el; exact kd_pure _
  | succ n ih =>
    intro i next es el
    unfold collect
    with_reducible repeat' first | kb1 | exact ih _ _ _ _ | intro _ | split
macro_rules | `(tactic| kb1) => `(tactic| exact collect_kd ..)
theorem writeBlocks_branched (f : Nat → Byte) (b n : Nat) (v : Vol) : (writeBlocks c f b n v).branched = v.branched := by
  induction n with
  | zero => rfl
  | succ n ih => unfold writeBlocks; exact ih
macro_rules | `(tactic| kb1) => `(tactic| exact kb_modify fun _ => writeBlocks_branched _ _ _ _)
theorem writeExtent_kd (f : Nat → Byte) (b n : Nat) : KD (writeExtent c f b n) := by unfold writeExtent; kb
macro_rules | `(tactic| kb1) => `(tactic| exact writeExtent_kd ..)
theorem writeLoop_kd (s n : Nat) (f : Nat → Byte) : ∀ k i x, KD (writeLoop c s n f k i x) := by
  intro k
  induction k with
  | zero => intro i x; unfold writeLoop; kb
  | succ k ih =>
    intro i x; unfold writeLoop
    with_reducible repeat' first | kb1 | exact ih _ _ | intro _ | split
macro_rules | `(tactic| kb1) => `(tactic| exact writeLoop_kd ..)
theorem writeAligned_kd (s n : Nat) (f : Nat → Byte) : KD (writeAligned c s n f) := by unfold writeAligned; kb
macro_rules | `(tactic| kb1) => `(tactic| exact writeAligned_kd ..)
theorem writeMiddle_kd (s a r : Nat) (f : Nat → Byte) : KD (writeMiddle c s a r f) := by unfold writeMiddle; kb
macro_rules | `(tactic| kb1) => `(tactic| exact writeMiddle_kd ..)
theorem writeTail_kd (s a r : Nat) (f : Nat → Byte) : KD (writeTail c s a r f) := by unfold writeTail; kb
macro_rules | `(tactic| kb1) => `(tactic| exact writeTail_kd ..)
theorem writeParts_kd (s a r : Nat) (f : Nat → Byte) : KD (writeParts c s a r f) := by unfold writeParts; kb
macro_rules | `(tactic| kb1) => `(tactic| exact writeParts_kd ..)
theorem dataWrite_kd (s l : Nat) (f : Nat → Byte) : KD (dataWrite c s l f) := by unfold dataWrite; kb
macro_rules | `(tactic| kb1) => `(tactic| exact dataWrite_kd ..)

theorem truncData_kd (q : Nat) : KD (truncData c q) := by unfold truncData; kb
macro_rules | `(tactic| kb1) => `(tactic| exact truncData_kd ..)
theorem truncIndirLoop_kd (x : Nat) (b : Bool) : ∀ n k, KD (truncIndirLoop c x b n k) := by
  intro n
  induction n with
  | zero => intro k; exact kd_pure _
  | succ n ih =>
    intro k; unfold truncIndirLoop
    with_reducible repeat' first | kb1 | exact ih _ | intro _ | split
macro_rules | `(tactic| kb1) => `(tactic| exact truncIndirLoop_kd ..)
theorem truncIndir_kd : KD (truncIndir c) := by unfold truncIndir; kb
macro_rules | `(tactic| kb1) => `(tactic| exact truncIndir_kd ..)
theorem truncDindirLoop_kd (b : Bool) : ∀ n d k, KD (truncDindirLoop c b n d k) := by
  intro n
  induction n with
  | zero => intro d k; exact kd_pure _
  | succ n ih =>
    intro d k; unfold truncDindirLoop
    with_reducible repeat' first | kb1 | exact ih _ _ | intro _ | split
macro_rules | `(tactic| kb1) => `(tactic| exact truncDindirLoop_kd ..)
theorem truncDindir_kd : KD (truncDindir c) := by unfold truncDindir; kb
macro_rules | `(tactic| kb1) => `(tactic| exact truncDindir_kd ..)
theorem shrinkDirect_kd : ∀ n t, KD (shrinkDirect c n t) := by
  intro n
  induction n with
  | zero => intro t; exact kd_pure _
  | succ n ih =>
    intro t; unfold shrinkDirect
    with_reducible repeat' first | kb1 | exact ih _ | intro _ | split
macro_rules | `(tactic| kb1) => `(tactic| exact shrinkDirect_kd ..)
theorem shrinkIndir_kd : ∀ n t, KD (shrinkIndir c n t) := by
  intro n
  induction n with
  | zero => intro t; unfold shrinkIndir; kb
  | succ n ih =>
    intro t; unfold shrinkIndir
    with_reducible repeat' first | kb1 | exact ih _ | intro _ | split
macro_rules | `(tactic| kb1) => `(tactic| exact shrinkIndir_kd ..)
theorem shrinkDindir_kd : ∀ n t, KD (shrinkDindir c n t) := by
  intro n
  induction n with
  | zero => intro t; unfold shrinkDindir; kb
  | succ n ih =>
    intro t; unfold shrinkDindir
    with_reducible repeat' first | kb1 | exact ih _ | intro _ | split
macro_rules | `(tactic| kb1) => `(tactic| exact shrinkDindir_kd ..)
theorem shrink_kd (n : Nat) : KD (shrink c n) := by unfold shrink; kb
macro_rules | `(tactic| kb1) => `(tactic| exact shrink_kd ..)
theorem dataTruncate_kd (n : Nat) : KD (dataTruncate c n) := by unfold dataTruncate; kb
macro_rules | `(tactic| kb1) => `(tactic| exact dataTruncate_kd ..)

/-! ### Directories -/

theorem dataBuf_kd : KD dataBuf := by unfold dataBuf; kb
macro_rules | `(tactic| kb1) => `(tactic| exact dataBuf_kd ..)
theorem lookupLoop_kd (nm : List Ch) (l n : Nat) : ∀ k i fr, KD (lookupLoop c nm l n k i fr) := by
  intro k
  induction k with
  | zero => intro i fr; unfold lookupLoop; kb
  | succ k ih =>
    intro i fr; unfold lookupLoop
    with_reducible repeat' first | kb1 | exact ih _ _ | intro _ | split | dsimp only
macro_rules | `(tactic| kb1) => `(tactic| exact lookupLoop_kd ..)
theorem dirLookup_kd (nm : List Ch) : KD (dirLookup c nm) := by unfold dirLookup; kb
macro_rules | `(tactic| kb1) => `(tactic| exact dirLookup_kd ..)
theorem dirEntryWrite_kd (i j : Nat) (nm : List Ch) (l : Nat) : KD (dirEntryWrite c i j nm l) := by unfold dirEntryWrite; kb
macro_rules | `(tactic| kb1) => `(tactic| exact dirEntryWrite_kd ..)
theorem dirCreate_kd (nm : List Ch) (i : Nat) : KD (dirCreate c nm i) := by unfold dirCreate; kb
macro_rules | `(tactic| kb1) => `(tactic| exact dirCreate_kd ..)
theorem trimLoop_kd : ∀ k n, KD (trimLoop c k n) := by
  intro k
  induction k with
  | zero => intro n; unfold trimLoop; kb
  | succ k ih =>
    intro n; unfold trimLoop
    with_reducible repeat' first | kb1 | exact ih _ | intro _ | split
macro_rules | `(tactic| kb1) => `(tactic| exact trimLoop_kd ..)
theorem dirDelete_kd (i : Nat) : KD (dirDelete c i) := by unfold dirDelete; kb
macro_rules | `(tactic| kb1) => `(tactic| exact dirDelete_kd ..)
theorem readLoop_kd (n : Nat) : ∀ k i, KD (readLoop c n k i) := by
  intro k
  induction k with
  | zero => intro i; unfold readLoop; kb
  | succ k ih =>
    intro i; unfold readLoop
    with_reducible repeat' first | kb1 | exact ih _ | intro _ | split | dsimp only
macro_rules | `(tactic| kb1) => `(tactic| exact readLoop_kd ..)
theorem dirRead_kd (i : Nat) : KD (dirRead c i) := by unfold dirRead; kb
macro_rules | `(tactic| kb1) => `(tactic| exact dirRead_kd ..)
theorem cyclicLoop_kb (s : Nat) : ∀ k n, KB (cyclicLoop c s k n) := by
  intro k
  induction k with
  | zero => intro n; exact kb_pure _
  | succ k ih =>
    intro n; unfold cyclicLoop
    with_reducible repeat' first | kb1 | exact ih _ | intro _ | split
macro_rules | `(tactic| kb1) => `(tactic| exact cyclicLoop_kb ..)
theorem cyclicCheck_kb (s : Nat) (d : Cinode) : KB (cyclicCheck c s d) := by unfold cyclicCheck; kb
macro_rules | `(tactic| kb1) => `(tactic| exact cyclicCheck_kb ..)
theorem onSrcP_kb (p : Parents) {m : DM α} (h : KD m) : KB (onSrcP p m) := by unfold onSrcP; kb
macro_rules | `(tactic| kb1) => `(tactic| apply onSrcP_kb)
theorem onDstP_kb (p : Parents) {m : DM α} (h : KD m) : KB (onDstP p m) := by unfold onDstP; kb
macro_rules | `(tactic| kb1) => `(tactic| apply onDstP_kb)
theorem renameTarget_kb (r : Except Err LookupRes) : KB (renameTarget c r) := by unfold renameTarget; kb
macro_rules | `(tactic| kb1) => `(tactic| exact renameTarget_kb ..)
theorem renameReplaced_kb (s : Cinode) (d : Nat) : KB (renameReplaced c s d) := by unfold renameReplaced; kb
macro_rules | `(tactic| kb1) => `(tactic| exact renameReplaced_kb ..)
theorem renameRevert_kb (p : Parents) (i j : Nat) (nm : List Ch) (l : Nat) : KB (renameRevert (α := α) c p i j nm l) := by unfold renameRevert; kb
macro_rules | `(tactic| kb1) => `(tactic| exact renameRevert_kb ..)
theorem renameEntries_kb (p : Parents) (a b d e : Nat) (nm : List Ch) (l : Nat) : KB (renameEntries c p a b d e nm l) := by unfold renameEntries; kb
macro_rules | `(tactic| kb1) => `(tactic| exact renameEntries_kb ..)
theorem renameMove_kb (p : Parents) (a b d e : Nat) (nm : List Ch) (l : Nat) : KB (RedFs.renameMove c p a b d e nm l) := by unfold RedFs.renameMove; kb
macro_rules | `(tactic| kb1) => `(tactic| exact renameMove_kb ..)
theorem dirRename_kb (p : Parents) (a b : List Ch) : KB (RedFs.dirRename c p a b) := by unfold RedFs.dirRename; kb
macro_rules | `(tactic| kb1) => `(tactic| exact dirRename_kb ..)

/-! ### The bodies of the calls -/

theorem inodeDelete_kb (ci : Cinode) : KB (inodeDelete c ci) := by unfold inodeDelete; kb
macro_rules | `(tactic| kb1) => `(tactic| exact inodeDelete_kb ..)
theorem inodeLinkDec_kb (ci : Cinode) : KB (inodeLinkDec c ci) := by unfold inodeLinkDec; kb
macro_rules | `(tactic| kb1) => `(tactic| exact inodeLinkDec_kb ..)
theorem setUseReserved_kb (b : Bool) : KB (setUseReserved c b) := by unfold setUseReserved; kb
macro_rules | `(tactic| kb1) => `(tactic| exact setUseReserved_kb ..)
theorem rwOp_kb {m : VM α} (h : KB m) : KB (RedFs.rwOp m) := by unfold RedFs.rwOp; kb
macro_rules | `(tactic| kb1) => `(tactic| apply rwOp_kb)
theorem whenMounted_kb {m : VM α} (h : KB m) : KB (RedFs.whenMounted m) := by unfold RedFs.whenMounted; kb
macro_rules | `(tactic| kb1) => `(tactic| apply whenMounted_kb)
theorem writeSub_kb (i s l : Nat) (b : Nat → Byte) : KB (coreFileWriteSub c i s l b) := by unfold coreFileWriteSub; kb
theorem truncateSub_kb (i s : Nat) : KB (coreFileTruncateSub c i s) := by unfold coreFileTruncateSub; kb
theorem createSub_kb (p : Nat) (nm : List Ch) (d : Bool) : KB (coreCreateSub c p nm d) := by unfold coreCreateSub; kb
theorem linkSub_kb (p : Nat) (nm : List Ch) (i : Nat) : KB (coreLinkSub c p nm i) := by unfold coreLinkSub; kb
theorem unlinkSub_kb (p : Nat) (nm : List Ch) : KB (coreUnlinkSub c p nm) := by unfold coreUnlinkSub; kb
theorem renameSub_kb (p : Nat) (nm : List Ch) (p' : Nat) (nm' : List Ch) : KB (coreRenameSub c p nm p' nm') := by unfold coreRenameSub; kb
theorem read_kb (i s l : Nat) : KB (coreFileRead c i s l) := by unfold coreFileRead; kb
theorem dirRead_core_kb (p k : Nat) : KB (coreDirRead c p k) := by unfold coreDirRead; kb

end RedFs.Times
