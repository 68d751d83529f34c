import Verif.Lemmas.Io
set_option linter.unusedSimpArgs false
set_option linter.unusedVariables false
/-!
The functions that only read, on a device that may fail (see `Lemmas/Io.lean`).
-/
namespace RedFs.Io
open RedFs M HasVol

/-- Known functions; extended below. -/
syntax "tm_leaf" : tactic
set_option hygiene false in
macro_rules | `(tactic| tm_leaf) => `(tactic| first
  | assumption
  | exact Tame.pure hR _
  | exact Tame.fail hR _
  | exact Tame.ofExcept hR _
  | exact Tame.get hR
  | exact Tame.critical hR _)

-- walk through two functions of the same shape
set_option hygiene false in
macro "tm1" : tactic => `(tactic| first
  | with_reducible tm_leaf
  | with_reducible refine Tame.criticalAssert hR ?_
  | with_reducible refine Tame.criticalAssertD hR ?_
  | with_reducible refine Tame.onlyIf hR (fun _ => ?_)
  | with_reducible refine Tame.liftV ?_
  | with_reducible refine Tame.runCi ?_
  | with_reducible refine Tame.ioNone hR ?_
  | with_reducible refine Tame.bind hR ?_ (fun _ => ?_)
  | with_reducible refine Tame.ite (fun _ => ?_) (fun _ => ?_))
macro "tm" : tactic => `(tactic| repeat' (first | tm1 | (dsimp only; tm1)))

variable {R : Vol → Vol → Prop} {c : Conf} {α β : Type}

theorem getImap_st (b : Nat) (v : Vol) : (RedFs.getImap b v).2 = v := by
  unfold RedFs.getImap; split <;> rfl
theorem getInodeBuf_st (b : Nat) (v : Vol) : (RedFs.getInodeBuf b v).2 = v := by
  unfold RedFs.getInodeBuf; split <;> rfl
theorem getBuf_st (k : NKind) (b : Nat) (v : Vol) : (RedFs.getBuf k b v).2 = v := by
  unfold RedFs.getBuf; split <;> rfl

theorem getImap_lift (hR : Keeps R) (b : Nat) : Tame R (liftI (RedFs.getImap b)) (RedFs.getImap b) := .lift fun s => by rw [getImap_st]; exact hR.refl _
theorem getImap_tame (hR : Keeps R) (b : Nat) : Tame R (getImap b) (RedFs.getImap b) := .ioNone hR (getImap_lift hR b)
theorem getInodeBuf_tame (hR : Keeps R) (b : Nat) : Tame R (getInodeBuf b) (RedFs.getInodeBuf b) :=
  .ioNone hR (.lift fun s => by rw [getInodeBuf_st]; exact hR.refl _)
theorem getBuf_tame (hR : Keeps R) (k : NKind) (b : Nat) : Tame R (getBuf k b) (RedFs.getBuf k b) :=
  .ioNone hR (.lift fun s => by rw [getBuf_st]; exact hR.refl _)
set_option hygiene false in
macro_rules | `(tactic| tm_leaf) => `(tactic| first
  | exact getImap_lift hR _
  | exact getImap_tame hR _
  | exact getInodeBuf_tame hR _
  | exact getBuf_tame hR _ _)

theorem imapIGet_tame (hR : Keeps R) (bMR : Bool) (b : Nat) : Tame R (liftI (imapIGet c bMR b)) (imapIGet c bMR b) := .lift fun s => hR.refl _

theorem imapEGet_tame (hR : Keeps R) (bMR : Bool) (b : Nat) : Tame R (imapEGet c bMR b) (RedFs.imapEGet c bMR b) := by
  unfold imapEGet RedFs.imapEGet
  tm

theorem imapBlockGet_tame (hR : Keeps R) (bMR : Bool) (b : Nat) : Tame R (imapBlockGet c bMR b) (RedFs.imapBlockGet c bMR b) := by
  have h1 := imapEGet_tame (c := c) hR bMR b
  have h2 := imapIGet_tame (c := c) hR bMR b
  unfold imapBlockGet RedFs.imapBlockGet
  tm
set_option hygiene false in
macro_rules | `(tactic| tm_leaf) => `(tactic| exact imapBlockGet_tame hR _ _)

theorem imapBlockState_tame (hR : Keeps R) (b : Nat) : Tame R (imapBlockState c b) (RedFs.imapBlockState c b) := by
  unfold imapBlockState RedFs.imapBlockState
  tm
set_option hygiene false in
macro_rules | `(tactic| tm_leaf) => `(tactic| exact imapBlockState_tame hR _)

theorem inodeBitGet_tame (hR : Keeps R) (bMR : Bool) (i : Nat) (w : Bool) : Tame R (inodeBitGet c bMR i w) (RedFs.inodeBitGet c bMR i w) := by
  unfold inodeBitGet RedFs.inodeBitGet
  tm
set_option hygiene false in
macro_rules | `(tactic| tm_leaf) => `(tactic| exact inodeBitGet_tame hR _ _ _)

theorem inodeCurrentCopy_tame (hR : Keeps R) (i : Nat) : Tame R (inodeCurrentCopy c i) (RedFs.inodeCurrentCopy c i) := by
  unfold inodeCurrentCopy RedFs.inodeCurrentCopy
  tm
theorem inodeWriteableCopy_tame (hR : Keeps R) (i : Nat) : Tame R (inodeWriteableCopy c i) (RedFs.inodeWriteableCopy c i) := by
  unfold inodeWriteableCopy RedFs.inodeWriteableCopy
  tm
theorem inodeIsFree_tame (hR : Keeps R) (i : Nat) : Tame R (inodeIsFree c i) (RedFs.inodeIsFree c i) := by
  unfold inodeIsFree RedFs.inodeIsFree
  tm
theorem inodeIsBranched_tame (hR : Keeps R) (i : Nat) : Tame R (inodeIsBranched c i) (RedFs.inodeIsBranched c i) := by
  unfold inodeIsBranched RedFs.inodeIsBranched
  tm
set_option hygiene false in
macro_rules | `(tactic| tm_leaf) => `(tactic| first
  | exact inodeCurrentCopy_tame hR _
  | exact inodeWriteableCopy_tame hR _
  | exact inodeIsFree_tame hR _
  | exact inodeIsBranched_tame hR _)

theorem inodeFindLoop_tame (hR : Keeps R) (n i : Nat) : Tame R (inodeFindLoop c n i) (RedFs.inodeFindLoop c n i) := by
  induction n generalizing i with
  | zero => unfold inodeFindLoop RedFs.inodeFindLoop; tm
  | succ n ih =>
    unfold inodeFindLoop RedFs.inodeFindLoop
    refine Tame.bind hR (by tm) fun b => Tame.ite (fun _ => ?_) (fun _ => ih _)
    tm

theorem inodeFindFree_tame (hR : Keeps R) : Tame R (inodeFindFree c) (RedFs.inodeFindFree c) := by
  unfold inodeFindFree RedFs.inodeFindFree
  refine Tame.bind hR (by tm) fun v => Tame.ite (fun _ => by tm) fun _ => Tame.bind hR (inodeFindLoop_tame hR _ _) fun o => ?_
  cases o
  · tm
  · tm
set_option hygiene false in
macro_rules | `(tactic| tm_leaf) => `(tactic| exact inodeFindFree_tame hR)

theorem inodeMount_tame_of (hR : Keeps R) (i : Nat) (ty : FType) (br : Bool)
    (hb : br = true → ∀ ci, Tame R (inodeBranch c ci) (RedFs.inodeBranch c ci)) : Tame R (inodeMount c i ty br) (RedFs.inodeMount c i ty br) := by
  unfold inodeMount RedFs.inodeMount
  tm
  all_goals exact hb (by assumption) _

/-- `RedInodeMount` without branching. -/
theorem inodeMount_tame0 (hR : Keeps R) (i : Nat) (ty : FType) : Tame R (inodeMount c i ty false) (RedFs.inodeMount c i ty false) :=
  inodeMount_tame_of hR i ty false (fun h => by cases h)
set_option hygiene false in
macro_rules | `(tactic| tm_leaf) => `(tactic| exact inodeMount_tame0 hR _ _)

/-! ### inodedata.c -/

theorem setCi_tame (hR : Keeps R) (f : Cinode → Cinode) : Tame R (setCi f) (RedFs.setCi f) := .lift fun s => hR.refl _
set_option hygiene false in
macro_rules | `(tactic| tm_leaf) => `(tactic| exact setCi_tame hR _)

theorem seekCoord_tame (hR : Keeps R) (b : Nat) : Tame R (seekCoord c b) (RedFs.seekCoord c b) := by
  refine .lift fun s => ?_
  unfold RedFs.seekCoord
  simp only [run_bind, run_get]
  split
  · exact hR.refl _
  · split <;> exact hR.refl _
set_option hygiene false in
macro_rules | `(tactic| tm_leaf) => `(tactic| exact seekCoord_tame hR _)

theorem seekDindir_tame (hR : Keeps R) : Tame R seekDindir RedFs.seekDindir := by
  unfold seekDindir RedFs.seekDindir
  refine Tame.bind hR (by tm) fun s => ?_
  rcases s with ⟨ci, v⟩; dsimp only
  cases ci.dindirEntry
  · tm
  · dsimp only
    refine Tame.ite (fun _ => by tm) fun _ => ?_
    cases ci.pDindir
    · tm
    · tm
theorem seekIndir_tame (hR : Keeps R) : Tame R seekIndir RedFs.seekIndir := by
  unfold seekIndir RedFs.seekIndir
  refine Tame.bind hR (by tm) fun s => ?_
  rcases s with ⟨ci, v⟩; dsimp only
  cases ci.indirEntry
  · tm
  · dsimp only
    refine Tame.ite (fun _ => by tm) fun _ => ?_
    cases ci.pIndir
    · tm
    · tm
theorem seekInode_tame (hR : Keeps R) (b : Nat) : Tame R (seekInode c b) (RedFs.seekInode c b) := by
  have h1 := seekDindir_tame hR
  have h2 := seekIndir_tame hR
  unfold seekInode RedFs.seekInode
  tm
theorem seekData_tame (hR : Keeps R) (b : Nat) : Tame R (seekData c b) (RedFs.seekData c b) := by
  unfold seekData RedFs.seekData
  refine (seekInode_tame hR b).attempt.bind hR (fun r => ?_) (fun x hx => ?_)
  · rcases r with e | a
    · cases e <;> dsimp only <;> tm
    · tm
  · have hx : x = .error .eio := hx
    subst hx; exact After.fail hR
set_option hygiene false in
macro_rules | `(tactic| tm_leaf) => `(tactic| exact seekData_tame hR _)

theorem seekAndRead_tame (hR : Keeps R) (b : Nat) : Tame R (seekAndRead c b) (RedFs.seekAndRead c b) := by
  unfold seekAndRead RedFs.seekAndRead
  refine Tame.bind hR (by tm) fun a => Tame.ite (fun _ => ?_) (fun _ => by tm)
  have h : Tame R (do RedFs.Io.setCi fun ci => { ci with pData := some (ci.pData.getD ci.dataBlk) }; pure true)
    (do RedFs.setCi fun ci => { ci with pData := some (ci.pData.getD ci.dataBlk) }; pure true : DM Bool) := by tm
  have h2 : Tame R (do
      let s ← Io.get
      if s.ci.pData = none then Io.liftV io else pure ()
      RedFs.Io.setCi fun ci => { ci with pData := some (ci.pData.getD ci.dataBlk) }
      pure true)
    (do
      let s ← M.get
      if s.ci.pData = none then RedFs.liftV (pure ()) else pure ()
      RedFs.setCi fun ci => { ci with pData := some (ci.pData.getD ci.dataBlk) }
      pure true) := by
    have h3 := Tame.io1 hR
    tm
  have e : (do
      let s ← M.get
      if s.ci.pData = none then RedFs.liftV (pure ()) else pure ()
      RedFs.setCi fun ci => { ci with pData := some (ci.pData.getD ci.dataBlk) }
      pure true : DM Bool) = (do RedFs.setCi fun ci => { ci with pData := some (ci.pData.getD ci.dataBlk) }; pure true) := by
    funext s
    simp only [run_bind, run_get]
    by_cases hp : s.ci.pData = none
    · rw [if_pos hp]; rfl
    · rw [if_neg hp]; rfl
  rw [e] at h2
  exact h2
set_option hygiene false in
macro_rules | `(tactic| tm_leaf) => `(tactic| exact seekAndRead_tame hR _)

theorem readUnaligned_tame (hR : Keeps R) (start len : Nat) : Tame R (readUnaligned c start len) (RedFs.readUnaligned c start len) := by
  unfold readUnaligned RedFs.readUnaligned
  tm

theorem extentLoop_tame (hR : Keeps R) (start first n run : Nat) : Tame R (extentLoop c start first n run) (RedFs.extentLoop c start first n run) := by
  induction n generalizing run with
  | zero => unfold extentLoop RedFs.extentLoop; tm
  | succ n ih =>
    unfold extentLoop RedFs.extentLoop
    refine Tame.bind hR (by tm) fun b => Tame.ite (fun _ => Tame.bind hR (by tm) fun s => Tame.ite (fun _ => by tm) (fun _ => ih _)) (fun _ => by tm)
set_option hygiene false in
macro_rules | `(tactic| tm_leaf) => `(tactic| exact extentLoop_tame hR _ _ _ _)

theorem getExtent_tame (hR : Keeps R) (start len : Nat) : Tame R (getExtent c start len) (RedFs.getExtent c start len) := by
  unfold getExtent RedFs.getExtent
  tm

theorem Tame.ioD (hR : Keeps R) {k : IDM α} {f : DM α} (hk : Tame R k f) : Tame R (Io.liftV Io.io >>= fun _ => k) f := by
  have h := Tame.bind hR (Tame.liftV (Tame.io1 hR)) (fun _ : Unit => hk)
  have e : (RedFs.liftV (Pure.pure () : VM Unit) >>= fun _ => f) = f := rfl
  rw [e] at h; exact h

theorem readAligned_tame (hR : Keeps R) (start count fuel idx : Nat) : Tame R (readAligned c start count fuel idx) (RedFs.readAligned c start count fuel idx) := by
  induction fuel generalizing idx with
  | zero => unfold readAligned RedFs.readAligned; tm
  | succ n ih =>
    unfold readAligned RedFs.readAligned
    refine Tame.ite (fun _ => Tame.bind hR (getExtent_tame hR _ _) fun r => ?_) (fun _ => by tm)
    rcases r with _ | ⟨b, m⟩
    · dsimp only
      exact Tame.bind hR (ih _) fun _ => by tm
    · dsimp only
      refine Tame.bind hR (by tm) fun s => Tame.ioD hR (Tame.bind hR (ih _) fun _ => by tm)

theorem dataRead_tame (hR : Keeps R) (start len : Nat) : Tame R (dataRead c start len) (RedFs.dataRead c start len) := by
  unfold dataRead RedFs.dataRead
  refine Tame.bind hR (by tm) fun s => Tame.ite (fun _ => by tm) fun _ => Tame.ite (fun _ => by tm) fun _ => Tame.ite (fun _ => by tm) fun _ => ?_
  dsimp only
  unfold readParts RedFs.readParts
  refine Tame.bind hR (Tame.onlyIf hR fun _ => readUnaligned_tame hR _ _) fun _ => Tame.bind hR (Tame.onlyIf hR fun _ => readAligned_tame hR _ _ _ _) fun _ =>
    Tame.bind hR (Tame.onlyIf hR fun _ => readUnaligned_tame hR _ _) fun _ => by tm

/-! ### dir.c -/

theorem dataBuf_tame (hR : Keeps R) : Tame R dataBuf RedFs.dataBuf := .lift fun s => hR.refl _
set_option hygiene false in
macro_rules | `(tactic| tm_leaf) => `(tactic| exact dataBuf_tame hR)

theorem lookupLoop_tame (hR : Keeps R) (name : List Str.Ch) (len count fuel idx : Nat) (free : Option Nat) :
    Tame R (lookupLoop c name len count fuel idx free) (RedFs.lookupLoop c name len count fuel idx free) := by
  induction fuel generalizing idx free with
  | zero => unfold lookupLoop RedFs.lookupLoop; tm
  | succ n ih =>
    unfold lookupLoop RedFs.lookupLoop
    refine Tame.ite (fun _ => by tm) fun _ => Tame.bind hR (by tm) fun b => Tame.ite (fun _ => Tame.bind hR (by tm) fun x => ?_) fun _ => ih _ _
    dsimp only
    rcases RedFs.lookupBlock c x name len idx (min c.dpb (count - idx)) 0 free with ⟨_ | ⟨k, i⟩, f⟩
    · exact ih _ _
    · tm

theorem dirLookup_tame (hR : Keeps R) (name : List Str.Ch) : Tame R (dirLookup c name) (RedFs.dirLookup c name) := by
  unfold dirLookup RedFs.dirLookup
  refine Tame.bind hR (by tm) fun s => Tame.ite (fun _ => by tm) fun _ => Tame.ite (fun _ => by tm) fun _ => ?_
  dsimp only
  refine Tame.ite (fun _ => by tm) fun _ => Tame.ite (fun _ => by tm) fun _ => Tame.bind hR (lookupLoop_tame hR _ _ _ _ _ _) fun x => ?_
  rcases x with ⟨a, b, d⟩
  dsimp only
  tm
set_option hygiene false in
macro_rules | `(tactic| tm_leaf) => `(tactic| exact dirLookup_tame hR _)

theorem trimLoop_tame (hR : Keeps R) (fuel n : Nat) : Tame R (trimLoop c fuel n) (RedFs.trimLoop c fuel n) := by
  induction fuel generalizing n with
  | zero => unfold trimLoop RedFs.trimLoop; tm
  | succ m ih =>
    unfold trimLoop RedFs.trimLoop
    refine Tame.ite (fun _ => by tm) fun _ => Tame.bind hR (by tm) fun b => Tame.ite (fun _ => Tame.bind hR (by tm) fun x => ?_) fun _ => ih _
    dsimp only
    exact Tame.ite (fun _ => by tm) fun _ => ih _
set_option hygiene false in
macro_rules | `(tactic| tm_leaf) => `(tactic| exact trimLoop_tame hR _ _)

theorem readLoop_tame (hR : Keeps R) (count fuel idx : Nat) : Tame R (readLoop c count fuel idx) (RedFs.readLoop c count fuel idx) := by
  induction fuel generalizing idx with
  | zero => unfold readLoop RedFs.readLoop; tm
  | succ m ih =>
    unfold readLoop RedFs.readLoop
    refine Tame.ite (fun _ => by tm) fun _ => ?_
    dsimp only
    refine Tame.bind hR (by tm) fun b => Tame.ite (fun _ => Tame.bind hR (by tm) fun x => ?_) fun _ => ih _
    rcases RedFs.readBlock c x (min c.dpb (count - idx / c.dpb * c.dpb) - idx % c.dpb) (idx % c.dpb) with _ | k
    · exact ih _
    · tm

theorem dirRead_tame (hR : Keeps R) (idx : Nat) : Tame R (dirRead c idx) (RedFs.dirRead c idx) := by
  unfold dirRead RedFs.dirRead
  refine Tame.bind hR (by tm) fun s => Tame.ite (fun _ => by tm) fun _ => Tame.ite (fun _ => by tm) fun _ => ?_
  dsimp only
  refine Tame.bind hR (readLoop_tame hR _ _ _) fun x => ?_
  rcases x with _ | ⟨a, b, d⟩
  · tm
  · tm
set_option hygiene false in
macro_rules | `(tactic| tm_leaf) => `(tactic| exact dirRead_tame hR _)

theorem cyclicLoop_tame (hR : Keeps R) (src fuel next : Nat) : Tame R (cyclicLoop c src fuel next) (RedFs.cyclicLoop c src fuel next) := by
  induction fuel generalizing next with
  | zero => unfold cyclicLoop RedFs.cyclicLoop; tm
  | succ m ih =>
    unfold cyclicLoop RedFs.cyclicLoop
    exact Tame.ite (fun _ => by tm) fun _ => Tame.bind hR (by tm) fun ci => ih _

theorem cyclicCheck_tame (hR : Keeps R) (src : Nat) (ci : Cinode) : Tame R (cyclicCheck c src ci) (RedFs.cyclicCheck c src ci) := by
  unfold cyclicCheck RedFs.cyclicCheck
  refine Tame.ite (fun _ => by tm) fun _ => Tame.ite (fun _ => by tm) fun _ => Tame.ite (fun _ => by tm) fun _ => Tame.bind hR (cyclicLoop_tame hR _ _ _) fun o => ?_
  cases o
  · tm
  · tm
set_option hygiene false in
macro_rules | `(tactic| tm_leaf) => `(tactic| exact cyclicCheck_tame hR _ _)

theorem whenMounted_tame (hR : Keeps R) {mI : IVM α} {m : VM α} (h : Tame R mI m) : Tame R (whenMounted mI) (RedFs.whenMounted m) := by
  unfold whenMounted RedFs.whenMounted
  tm
theorem whenRw_tame (hR : Keeps R) {mI : IVM α} {m : VM α} (h : Tame R mI m) : Tame R (whenRw mI) (RedFs.whenRw m) := by
  unfold whenRw RedFs.whenRw
  tm
theorem rwOp_tame (hR : Keeps R) {mI : IVM α} {m : VM α} (h : Tame R mI m) : Tame R (rwOp mI) (RedFs.rwOp m) := by
  unfold rwOp RedFs.rwOp
  tm
theorem reply_tame (hR : Keeps R) {mI : IVM α} {m : VM α} (f : α → Reply) (h : Tame R mI m) : Tame R (reply f mI) (RedFs.reply f m) := by
  unfold reply RedFs.reply
  tm

theorem coreLookup_tame (hR : Keeps R) (p : Nat) (name : List Str.Ch) : Tame R (coreLookup c p name) (RedFs.coreLookup c p name) := by
  refine whenMounted_tame hR (Tame.bind hR (by tm) fun ci => Tame.bind hR (by tm) fun x => ?_)
  rcases x with ⟨_ | _, _⟩
  · tm
  · tm
theorem coreStat_tame (hR : Keeps R) (i : Nat) : Tame R (coreStat c i) (RedFs.coreStat c i) := whenMounted_tame hR (by tm)
theorem coreFileSizeGet_tame (hR : Keeps R) (i : Nat) : Tame R (coreFileSizeGet c i) (RedFs.coreFileSizeGet c i) := whenMounted_tame hR (by tm)
theorem coreDirParent_tame (hR : Keeps R) (i : Nat) : Tame R (coreDirParent c i) (RedFs.coreDirParent c i) := whenMounted_tame hR (by tm)

end RedFs.Io
