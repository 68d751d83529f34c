import Verif.Lemmas.IoWrite
set_option linter.unusedSimpArgs false
set_option linter.unusedVariables false
/-!
Writing and truncating files, on a device that may fail (see `Lemmas/Io.lean`).
-/
namespace RedFs.Io
open RedFs M HasVol Bitmap

variable {c : Conf} {α β : Type}

theorem setNode_le (s : DS) (n : InodeNode) : Le c s.v (s.setNode n).v := by
  unfold DS.setNode
  cases s.ci.nodeBuf with
  | none => exact Le.refl _
  | some nb =>
    show Le c s.v (if s.ci.dirty = true then s.v.write nb (.inode n) else s.v)
    split
    · exact Le.write _ _ _
    · exact Le.refl _
theorem setNode_tame (f : InodeNode → InodeNode) : Tame (Le c) (setNode f) (RedFs.setNode f) := .lift fun s => setNode_le s _
theorem setPtr_tame (x k q : Nat) : Tame (Le c) (setPtr x k q) (RedFs.setPtr x k q) := .lift fun s => Le.write _ _ _
theorem setOwner_tame (x o : Nat) : Tame (Le c) (setOwner x o) (RedFs.setOwner x o) := .lift fun s => Le.write _ _ _
theorem pokeData_tame (p l : Nat) (f : Nat → Byte) : Tame (Le c) (pokeData p l f) (RedFs.pokeData p l f) := by
  refine .lift fun s => ?_
  unfold RedFs.pokeData
  rw [run_bind, run_get]
  dsimp only
  cases s.ci.pData with
  | none => exact Le.refl _
  | some x => exact Le.write _ _ _
set_option hygiene false in
macro_rules | `(tactic| tm_leaf) => `(tactic| first
  | exact setNode_tame _
  | exact setPtr_tame _ _ _
  | exact setOwner_tame _ _
  | exact pokeData_tame _ _ _)

theorem isNew_tame (b : Nat) : Tame (Le c) (isNew c b) (RedFs.isNew c b) := by
  have hR := le_keeps c
  unfold isNew RedFs.isNew
  tm
set_option hygiene false in
macro_rules | `(tactic| tm_leaf) => `(tactic| exact isNew_tame _)

theorem branchCost_tame (ci : Cinode) (d : Nat) : Tame (Le c) (branchCost c ci d) (RedFs.branchCost c ci d) := by
  have hR := le_keeps c
  unfold branchCost RedFs.branchCost
  cases ci.dindirEntry
  · tm
  · tm

theorem branchOne_tame (p : Nat) (b : Option (Option Nat)) (k : NKind) : Tame (Le c) (branchOne c p b k) (RedFs.branchOne c p b k) := by
  have hR := le_keeps c
  unfold branchOne RedFs.branchOne
  rcases b with _ | _ | x
  · tm
  · tm
  · tm
set_option hygiene false in
macro_rules | `(tactic| tm_leaf) => `(tactic| first
  | exact branchCost_tame _ _
  | exact branchOne_tame _ _ _)

theorem branchDindir_tame : Tame (Le c) (branchDindir c) (RedFs.branchDindir c) := by
  have hR := le_keeps c
  unfold branchDindir RedFs.branchDindir
  refine Tame.bind hR (by tm) fun s => ?_
  cases s.ci.dindirEntry
  · tm
  · tm
theorem branchIndir_tame (d : Nat) : Tame (Le c) (branchIndir c d) (RedFs.branchIndir c d) := by
  have hR := le_keeps c
  unfold branchIndir RedFs.branchIndir
  refine Tame.bind hR (by tm) fun s => ?_
  cases s.ci.dindirEntry
  · tm
  · tm
theorem branchData_tame (d : Nat) (b : Bool) : Tame (Le c) (branchData c d b) (RedFs.branchData c d b) := by
  have hR := le_keeps c
  unfold branchData RedFs.branchData
  refine Tame.bind hR (by tm) fun s => ?_
  cases s.ci.indirEntry
  · tm
  · tm
set_option hygiene false in
macro_rules | `(tactic| tm_leaf) => `(tactic| first
  | exact branchDindir_tame
  | exact branchIndir_tame _
  | exact branchData_tame _ _)
theorem branchBlock_tame (d : Nat) (b : Bool) : Tame (Le c) (branchBlock c d b) (RedFs.branchBlock c d b) := by
  have hR := le_keeps c
  unfold branchBlock RedFs.branchBlock
  tm
set_option hygiene false in
macro_rules | `(tactic| tm_leaf) => `(tactic| exact branchBlock_tame _ _)

theorem expandPrepare_tame : Tame (Le c) (expandPrepare c) (RedFs.expandPrepare c) := by
  have hR := le_keeps c
  unfold expandPrepare RedFs.expandPrepare
  tm
theorem writeUnaligned_tame (s l : Nat) (f : Nat → Byte) : Tame (Le c) (writeUnaligned c s l f) (RedFs.writeUnaligned c s l f) := by
  have hR := le_keeps c
  unfold writeUnaligned RedFs.writeUnaligned
  tm
set_option hygiene false in
macro_rules | `(tactic| tm_leaf) => `(tactic| first
  | exact expandPrepare_tame
  | exact writeUnaligned_tame _ _ _)

theorem bind_assoc' {σ α β γ : Type} (m : M σ α) (f : α → M σ β) (g : β → M σ γ) : (m >>= f) >>= g = m >>= fun a => f a >>= g := by
  funext s
  simp only [run_bind]
  rcases m s with ⟨_ | _, _⟩ <;> rfl

theorem collect_tame (start n i next es el : Nat) : Tame (Le c) (collect c start n i next es el) (RedFs.collect c start n i next es el) := by
  have hR := le_keeps c
  induction n generalizing i next es el with
  | zero => unfold collect RedFs.collect; tm
  | succ n ih =>
    unfold collect RedFs.collect
    have body : ∀ r : Except Err Unit, Tame (Le c)
        (match r with
          | .ok () => do
            let s ← Io.get
            if el = 0 then collect c start n (i + 1) 0 s.ci.dataBlk 1
            else if s.ci.dataBlk = es + el then collect c start n (i + 1) 0 es (el + 1)
            else pure (false, s.ci.dataBlk, es, el)
          | .error .enospc => pure (true, 0, es, el)
          | .error e => M.fail e : IDM (Bool × Nat × Nat × Nat))
        (match r with
          | .ok () => do
            let s ← M.get
            if el = 0 then RedFs.collect c start n (i + 1) 0 s.ci.dataBlk 1
            else if s.ci.dataBlk = es + el then RedFs.collect c start n (i + 1) 0 es (el + 1)
            else pure (false, s.ci.dataBlk, es, el)
          | .error .enospc => pure (true, 0, es, el)
          | .error e => M.fail e) := by
      intro r
      rcases r with e | a
      · cases e <;> dsimp only <;> tm
      · exact Tame.bind hR (by tm) fun s => Tame.ite (fun _ => ih _ _ _ _) fun _ => Tame.ite (fun _ => ih _ _ _ _) fun _ => by tm
    by_cases hn : next = 0
    · rw [onlyIf_pos hn, onlyIf_pos hn, bind_assoc', bind_assoc']
      refine Tame.bind hR (by tm) fun _ => ?_
      refine (branchBlock_tame 2 false).attempt.bind hR body fun x hx => ?_
      have hx : x = .error .eio := hx
      subst hx; exact After.fail hR
    · unfold onlyIf
      rw [if_neg hn, if_neg hn]
      exact Tame.bind hR (by tm) body

theorem writeBlocks_dirty (f : Nat → Byte) (b n : Nat) (v : Vol) (x : Nat) :
    (writeBlocks c f b n v).dirty x = (if b ≤ x ∧ x < b + n then true else v.dirty x) := by
  induction n with
  | zero => rw [if_neg (by omega)]; rfl
  | succ n ih =>
    show (if x = b + n then true else (writeBlocks c f b n v).dirty x) = _
    rw [ih]
    by_cases h : x = b + n
    · rw [if_pos h, if_pos (by omega)]
    · rw [if_neg h]
      by_cases h2 : b ≤ x ∧ x < b + n
      · rw [if_pos h2, if_pos (by omega)]
      · rw [if_neg h2, if_neg (by omega)]
theorem writeBlocks_le (f : Nat → Byte) (b n : Nat) (v : Vol) : Le c v (writeBlocks c f b n v) := by
  induction n with
  | zero => exact Le.refl _
  | succ n ih => exact ih.trans (Le.write _ _ _)

theorem ioWrite_tame (f : Nat → Byte) (b n : Nat) :
    Tame (Le c) (do ioOr (junkBlocks b n); modify (writeBlocks c f b n)) (M.modify (writeBlocks c f b n)) := by
  have hR := le_keeps c
  refine Tame.io hR (fun d i v => Le.junk v b n i d) (.modify fun v => writeBlocks_le f b n v) fun d i v => ?_
  have h := writeBlocks_le (c := c) f b n v
  refine ⟨h.base, h.hist, h.cur, h.comm, h.mounted, h.mask, fun x hx => Or.inl ?_⟩
  show (writeBlocks c f b n v).dirty x = true
  rw [writeBlocks_dirty]; exact hx

theorem writeExtent_tame (f : Nat → Byte) (b n : Nat) : Tame (Le c) (writeExtent c f b n) (RedFs.writeExtent c f b n) := by
  have hR := le_keeps c
  have h := ioWrite_tame (c := c) f b n
  unfold writeExtent RedFs.writeExtent
  refine Tame.bind hR (by tm) fun s => ?_
  cases s.ci.pData
  · tm
  · tm
set_option hygiene false in
macro_rules | `(tactic| tm_leaf) => `(tactic| first
  | exact collect_tame _ _ _ _ _ _
  | exact writeExtent_tame _ _ _)

theorem writeLoop_tame (start count : Nat) (f : Nat → Byte) (fuel idx next : Nat) :
    Tame (Le c) (writeLoop c start count f fuel idx next) (RedFs.writeLoop c start count f fuel idx next) := by
  have hR := le_keeps c
  induction fuel generalizing idx next with
  | zero => unfold writeLoop RedFs.writeLoop; tm
  | succ n ih =>
    unfold writeLoop RedFs.writeLoop
    refine Tame.ite (fun _ => Tame.bind hR (by tm) fun x => ?_) fun _ => by tm
    rcases x with ⟨full, nx, es, el⟩
    exact Tame.ite (fun _ => by tm) fun _ => Tame.bind hR (by tm) fun _ => Tame.ite (fun _ => by tm) fun _ => ih _ _

theorem writeAligned_tame (start count : Nat) (f : Nat → Byte) : Tame (Le c) (writeAligned c start count f) (RedFs.writeAligned c start count f) := by
  have hR := le_keeps c
  unfold writeAligned RedFs.writeAligned
  refine Tame.bind hR (writeLoop_tame _ _ _ _ _ _) fun x => ?_
  rcases x with ⟨a, b⟩
  tm

theorem writeMiddle_tame (start first rem : Nat) (f : Nat → Byte) : Tame (Le c) (writeMiddle c start first rem f) (RedFs.writeMiddle c start first rem f) := by
  have hR := le_keeps c
  unfold writeMiddle RedFs.writeMiddle
  refine (writeAligned_tame _ _ _).attempt.bind hR (fun r => ?_) (fun x hx => ?_)
  · rcases r with e | b
    · cases e <;> dsimp only <;> tm
    · tm
  · have hx : x = .error .eio := hx
    subst hx; exact After.fail hR
theorem writeTail_tame (start done rem : Nat) (f : Nat → Byte) : Tame (Le c) (writeTail c start done rem f) (RedFs.writeTail c start done rem f) := by
  have hR := le_keeps c
  unfold writeTail RedFs.writeTail
  refine (writeUnaligned_tame _ _ _).attempt.bind hR (fun r => ?_) (fun x hx => ?_)
  · rcases r with e | b
    · cases e <;> dsimp only <;> tm
    · tm
  · have hx : x = .error .eio := hx
    subst hx; exact After.fail hR
set_option hygiene false in
macro_rules | `(tactic| tm_leaf) => `(tactic| first
  | exact writeMiddle_tame _ _ _ _
  | exact writeTail_tame _ _ _ _)

theorem writeParts_tame (start first rem : Nat) (f : Nat → Byte) : Tame (Le c) (writeParts c start first rem f) (RedFs.writeParts c start first rem f) := by
  have hR := le_keeps c
  unfold writeParts RedFs.writeParts
  tm
set_option hygiene false in
macro_rules | `(tactic| tm_leaf) => `(tactic| exact writeParts_tame _ _ _ _)
theorem dataWrite_tame (start len : Nat) (f : Nat → Byte) : Tame (Le c) (dataWrite c start len f) (RedFs.dataWrite c start len f) := by
  have hR := le_keeps c
  unfold dataWrite RedFs.dataWrite
  tm
set_option hygiene false in
macro_rules | `(tactic| tm_leaf) => `(tactic| exact dataWrite_tame _ _ _)

/-! ### truncating -/

theorem truncData_tame (q : Nat) : Tame (Le c) (truncData c q) (RedFs.truncData c q) := by
  have hR := le_keeps c
  unfold truncData RedFs.truncData
  tm
set_option hygiene false in
macro_rules | `(tactic| tm_leaf) => `(tactic| exact truncData_tame _)

theorem truncIndirLoop_tame (x : Nat) (b : Bool) (n k : Nat) : Tame (Le c) (truncIndirLoop c x b n k) (RedFs.truncIndirLoop c x b n k) := by
  have hR := le_keeps c
  induction n generalizing k with
  | zero => unfold truncIndirLoop RedFs.truncIndirLoop; tm
  | succ n ih =>
    unfold truncIndirLoop RedFs.truncIndirLoop
    refine Tame.bind hR (by tm) fun s => ?_
    dsimp only
    exact Tame.bind hR (by tm) fun _ => Tame.bind hR (by tm) fun _ => ih _
set_option hygiene false in
macro_rules | `(tactic| tm_leaf) => `(tactic| exact truncIndirLoop_tame _ _ _ _)

theorem truncIndir_tame : Tame (Le c) (truncIndir c) (RedFs.truncIndir c) := by
  have hR := le_keeps c
  unfold truncIndir RedFs.truncIndir
  refine Tame.bind hR (by tm) fun s => ?_
  cases s.ci.pIndir <;> cases s.ci.indirEntry <;> tm
set_option hygiene false in
macro_rules | `(tactic| tm_leaf) => `(tactic| exact truncIndir_tame)

theorem truncDindirLoop_tame (fb : Bool) (n d b : Nat) : Tame (Le c) (truncDindirLoop c fb n d b) (RedFs.truncDindirLoop c fb n d b) := by
  have hR := le_keeps c
  induction n generalizing d b with
  | zero => unfold truncDindirLoop RedFs.truncDindirLoop; tm
  | succ n ih =>
    unfold truncDindirLoop RedFs.truncDindirLoop
    refine Tame.bind hR (by tm) fun _ => Tame.bind hR (by tm) fun s => Tame.bind hR (by tm) fun _ => Tame.bind hR (by tm) fun _ => ih _ _
set_option hygiene false in
macro_rules | `(tactic| tm_leaf) => `(tactic| exact truncDindirLoop_tame _ _ _ _)

theorem truncDindir_tame : Tame (Le c) (truncDindir c) (RedFs.truncDindir c) := by
  have hR := le_keeps c
  unfold truncDindir RedFs.truncDindir
  refine Tame.bind hR (by tm) fun s => ?_
  cases s.ci.pDindir <;> cases s.ci.dindirEntry <;> cases s.ci.indirEntry <;> tm
set_option hygiene false in
macro_rules | `(tactic| tm_leaf) => `(tactic| exact truncDindir_tame)

theorem shrinkDirect_tame (n t : Nat) : Tame (Le c) (shrinkDirect c n t) (RedFs.shrinkDirect c n t) := by
  have hR := le_keeps c
  induction n generalizing t with
  | zero => unfold shrinkDirect RedFs.shrinkDirect; tm
  | succ n ih =>
    unfold shrinkDirect RedFs.shrinkDirect
    refine Tame.bind hR (by tm) fun s => ?_
    dsimp only
    exact Tame.bind hR (by tm) fun _ => Tame.bind hR (by tm) fun _ => ih _
theorem shrinkIndir_tame (n t : Nat) : Tame (Le c) (shrinkIndir c n t) (RedFs.shrinkIndir c n t) := by
  have hR := le_keeps c
  induction n generalizing t with
  | zero => unfold shrinkIndir RedFs.shrinkIndir; tm
  | succ n ih =>
    unfold shrinkIndir RedFs.shrinkIndir
    exact Tame.ite (fun _ => Tame.bind hR (by tm) fun _ => Tame.bind hR (by tm) fun _ => Tame.bind hR (by tm) fun _ => Tame.bind hR (by tm) fun _ => ih _) fun _ => by tm
theorem shrinkDindir_tame (n t : Nat) : Tame (Le c) (shrinkDindir c n t) (RedFs.shrinkDindir c n t) := by
  have hR := le_keeps c
  induction n generalizing t with
  | zero => unfold shrinkDindir RedFs.shrinkDindir; tm
  | succ n ih =>
    unfold shrinkDindir RedFs.shrinkDindir
    refine Tame.ite (fun _ => Tame.bind hR (by tm) fun _ => Tame.bind hR (by tm) fun s => Tame.bind hR (by tm) fun _ => Tame.bind hR (by tm) fun _ => ?_) fun _ => by tm
    exact ih _
set_option hygiene false in
macro_rules | `(tactic| tm_leaf) => `(tactic| first
  | exact shrinkDirect_tame _ _
  | exact shrinkIndir_tame _ _
  | exact shrinkDindir_tame _ _)
theorem shrink_tame (n : Nat) : Tame (Le c) (shrink c n) (RedFs.shrink c n) := by
  have hR := le_keeps c
  unfold shrink RedFs.shrink
  tm
set_option hygiene false in
macro_rules | `(tactic| tm_leaf) => `(tactic| exact shrink_tame _)
theorem dataTruncate_tame (n : Nat) : Tame (Le c) (dataTruncate c n) (RedFs.dataTruncate c n) := by
  have hR := le_keeps c
  unfold dataTruncate RedFs.dataTruncate
  tm
set_option hygiene false in
macro_rules | `(tactic| tm_leaf) => `(tactic| exact dataTruncate_tame _)

end RedFs.Io
