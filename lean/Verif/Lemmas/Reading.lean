import Verif.Model.Fault
set_option linter.unusedSimpArgs false
set_option linter.unusedVariables false
/-!
What the calls that only ask depend on.
-/
namespace RedFs
open M Bitmap Vol

/-- Not a block that the calls look into. -/
def Opaque : Blk → Bool
  | .metaroot _ => true
  | .badMetaroot _ => true
  | .master _ => true
  | _ => false

/-- Two read-only volumes on which the calls that only ask give the same answers. -/
structure Like (v w : Vol) : Prop where
  blk : ∀ b, v.blk b = w.blk b ∨ (Opaque (v.blk b) = true ∧ Opaque (w.blk b) = true)
  cur : v.cur = w.cur
  mr : ∀ i, (v.mr i).entries = (w.mr i).entries
  mounted : v.mounted = w.mounted
  ro : v.readOnly = true
  ro' : w.readOnly = true

variable {α β : Type} {v w : Vol}

theorem opaque_cases {x : Blk} (h : Opaque x = true) : (∃ m, x = .metaroot m) ∨ (∃ s, x = .badMetaroot s) ∨ ∃ m, x = .master m := by
  cases x <;> first | (exfalso; revert h; decide) | exact Or.inl ⟨_, rfl⟩ | exact Or.inr (Or.inl ⟨_, rfl⟩) | exact Or.inr (Or.inr ⟨_, rfl⟩) | (simp [Opaque] at h)

theorem Like.via (h : Like v w) {γ : Type} (f : Blk → γ) (hf : ∃ z, ∀ x, Opaque x = true → f x = z) (b : Nat) : f (v.blk b) = f (w.blk b) := by
  obtain ⟨z, hf⟩ := hf
  rcases h.blk b with e | ⟨e1, e2⟩
  · rw [e]
  · rw [hf _ e1, hf _ e2]

theorem Like.ptrs (h : Like v w) (b : Nat) : (v.blk b).ptrs = (w.blk b).ptrs :=
  h.via Blk.ptrs ⟨fun _ => 0, fun x hx => by rcases opaque_cases hx with ⟨m, rfl⟩ | ⟨m, rfl⟩ | ⟨m, rfl⟩ <;> rfl⟩ b
theorem Like.bytes (h : Like v w) (b : Nat) : (v.blk b).bytes = (w.blk b).bytes :=
  h.via Blk.bytes ⟨fun _ => 0, fun x hx => by rcases opaque_cases hx with ⟨m, rfl⟩ | ⟨m, rfl⟩ | ⟨m, rfl⟩ <;> rfl⟩ b
theorem Like.valid (h : Like v w) (k : NKind) (b : Nat) : k.valid (v.blk b) = k.valid (w.blk b) :=
  h.via k.valid ⟨k.valid (.badMetaroot true), fun x hx => by rcases opaque_cases hx with ⟨m, rfl⟩ | ⟨m, rfl⟩ | ⟨m, rfl⟩ <;> cases k <;> rfl⟩ b

/-- `m` only asks. -/
def RdV (m : VM α) : Prop := ∀ (v w : Vol), Like v w → ∃ r, m v = (r, v) ∧ m w = (r, w)
def RdD (m : DM α) : Prop := ∀ (s t : DS), s.ci = t.ci → Like s.v t.v → ∃ r ci, m s = (r, ⟨ci, s.v⟩) ∧ m t = (r, ⟨ci, t.v⟩)

theorem RdV.pure (a : α) : RdV (pure a : VM α) := fun _ _ _ => ⟨_, rfl, rfl⟩
theorem RdV.fail (e : Err) : RdV (fail e : VM α) := fun _ _ _ => ⟨_, rfl, rfl⟩
theorem RdV.bind {m : VM α} {f : α → VM β} (hm : RdV m) (hf : ∀ a, RdV (f a)) : RdV (m >>= f) := by
  intro v w h
  obtain ⟨r, h1, h2⟩ := hm _ _ h
  rw [run_bind, run_bind, h1, h2]
  rcases r with e | a
  · exact ⟨_, rfl, rfl⟩
  · exact hf a _ _ h
theorem RdV.get {f : Vol → VM α} (h1 : ∀ v w, Like v w → f v = f w) (h2 : ∀ u, RdV (f u)) : RdV (M.get >>= f) := by
  intro v w h
  rw [run_bind, run_bind, run_get, run_get]
  obtain ⟨r, g1, g2⟩ := h2 v _ _ h
  exact ⟨r, g1, show f w w = _ by rw [← h1 v w h]; exact g2⟩
theorem RdV.ite {p : Prop} [Decidable p] {m m' : VM α} (h1 : RdV m) (h2 : RdV m') : RdV (if p then m else m') := by
  split
  · exact h1
  · exact h2
theorem RdV.critical (e : Err) : RdV (critical e : VM α) := by
  intro v w h
  refine ⟨.error e, ?_, ?_⟩
  · unfold RedFs.critical; simp only [run_bind, run_modify, run_fail]; rw [← h.ro]
  · unfold RedFs.critical; simp only [run_bind, run_modify, run_fail]; rw [← h.ro']

theorem RdD.pure (a : α) : RdD (pure a : DM α) := fun s t hci _ => ⟨_, s.ci, rfl, by rw [hci]; rfl⟩
theorem RdD.fail (e : Err) : RdD (fail e : DM α) := fun s t hci _ => ⟨_, s.ci, rfl, by rw [hci]; rfl⟩
theorem RdD.bind {m : DM α} {f : α → DM β} (hm : RdD m) (hf : ∀ a, RdD (f a)) : RdD (m >>= f) := by
  intro s t hci h
  obtain ⟨r, ci, h1, h2⟩ := hm _ _ hci h
  rw [run_bind, run_bind, h1, h2]
  rcases r with e | a
  · exact ⟨_, _, rfl, rfl⟩
  · exact hf a _ _ rfl h
theorem RdD.get {f : DS → DM α} (h1 : ∀ s t : DS, s.ci = t.ci → Like s.v t.v → f s = f t) (h2 : ∀ u, RdD (f u)) : RdD (M.get >>= f) := by
  intro s t hci h
  rw [run_bind, run_bind, run_get, run_get]
  obtain ⟨r, ci, g1, g2⟩ := h2 s _ _ hci h
  exact ⟨r, ci, g1, show f t t = _ by rw [← h1 s t hci h]; exact g2⟩
theorem RdD.ite {p : Prop} [Decidable p] {m m' : DM α} (h1 : RdD m) (h2 : RdD m') : RdD (if p then m else m') := by
  split
  · exact h1
  · exact h2
theorem RdD.attempt {m : DM α} (h : RdD m) : RdD (attempt m) := by
  intro s t hci hl
  obtain ⟨r, ci, h1, h2⟩ := h _ _ hci hl
  exact ⟨.ok r, ci, by rw [run_attempt, h1], by rw [run_attempt, h2]⟩
theorem RdD.onlyIf {p : Prop} [Decidable p] {m : DM α} {d : α} (h : RdD m) : RdD (onlyIf p m d) := RdD.ite h (RdD.pure d)
theorem RdD.setCi (f : Cinode → Cinode) : RdD (setCi f) := fun s t hci _ => ⟨.ok (), f s.ci, rfl, by rw [hci]; rfl⟩
theorem RdD.liftV {m : VM α} (h : RdV m) : RdD (liftV m) := by
  intro s t hci hl
  obtain ⟨r, h1, h2⟩ := h _ _ hl
  refine ⟨r, s.ci, ?_, ?_⟩
  · unfold RedFs.liftV; rw [h1]
  · unfold RedFs.liftV; rw [h2, hci]
theorem RdV.runCi {m : DM α} (ci : Cinode) (h : RdD m) : RdV (runCi ci m) := by
  intro v w hl
  obtain ⟨r, ci', h1, h2⟩ := h ⟨ci, v⟩ ⟨ci, w⟩ rfl hl
  unfold RedFs.runCi
  rw [h1, h2]
  rcases r with e | a <;> exact ⟨_, rfl, rfl⟩

variable {c : Conf}

theorem rd_getImap (b : Nat) : RdV (getImap b) := by
  intro v w h
  have : (getImap b v).1 = (getImap b w).1 := by
    have := h.via (fun x => match x with | .imap bits => Except.ok bits | _ => Except.error Err.eio) ⟨.error .eio, fun x hx => by
      rcases opaque_cases hx with ⟨m, rfl⟩ | ⟨m, rfl⟩ | ⟨m, rfl⟩ <;> rfl⟩ b
    unfold getImap
    cases h1 : v.blk b <;> cases h2 : w.blk b <;> simp [h1, h2] at this ⊢ <;> exact this
  refine ⟨(getImap b v).1, ?_, ?_⟩
  · unfold getImap; cases v.blk b <;> rfl
  · rw [this]; unfold getImap; cases w.blk b <;> rfl

theorem rd_getInodeBuf (b : Nat) : RdV (getInodeBuf b) := by
  intro v w h
  have : (getInodeBuf b v).1 = (getInodeBuf b w).1 := by
    have := h.via (fun x => match x with | .inode bits => Except.ok bits | _ => Except.error Err.eio) ⟨.error .eio, fun x hx => by
      rcases opaque_cases hx with ⟨m, rfl⟩ | ⟨m, rfl⟩ | ⟨m, rfl⟩ <;> rfl⟩ b
    unfold getInodeBuf
    cases h1 : v.blk b <;> cases h2 : w.blk b <;> simp [h1, h2] at this ⊢ <;> exact this
  refine ⟨(getInodeBuf b v).1, ?_, ?_⟩
  · unfold getInodeBuf; cases v.blk b <;> rfl
  · rw [this]; unfold getInodeBuf; cases w.blk b <;> rfl

theorem rd_getBuf (k : NKind) (b : Nat) : RdV (getBuf k b) := by
  intro v w h
  unfold getBuf
  rw [h.valid k b]
  split <;> exact ⟨_, rfl, rfl⟩

theorem Like.isBranched (h : Like v w) (k : Nat) : nodeIsBranched v k = nodeIsBranched w k := by
  unfold nodeIsBranched; rw [h.mr, h.mr]

theorem Like.nodeBlk (h : Like v w) (i : Bool) (k : Nat) : nodeBlk c (v.mr i) k = nodeBlk c (w.mr i) k := by
  unfold RedFs.nodeBlk; rw [h.mr]

theorem rd_imapGet (bMR : Bool) (b : Nat) : RdV (imapBlockGet c bMR b) := by
  unfold imapBlockGet
  refine .ite (.fail _) (.ite ?_ ?_)
  · unfold imapIGet
    exact .get (fun v w h => by rw [h.mr]) (fun _ => .pure _)
  · unfold imapEGet
    refine .get (fun v w h => ?_) (fun _ => .bind (rd_getImap _) fun _ => .pure _)
    dsimp only
    rw [h.cur, h.isBranched, h.nodeBlk]

theorem rd_inodeBitGet (bMR : Bool) (i : Nat) (b : Bool) : RdV (inodeBitGet c bMR i b) := .ite (rd_imapGet _ _) (.fail _)

theorem rd_blockState (b : Nat) : RdV (imapBlockState c b) := by
  unfold imapBlockState
  exact .ite (.fail _) (.get (fun v w h => by rw [h.cur]) fun u => .bind (rd_imapGet _ _) fun _ => .bind (rd_imapGet _ _) fun _ => .pure _)

theorem rd_mount (ino : Nat) (t : FType) : RdV (inodeMount c ino t false) := by
  unfold inodeMount
  refine .ite (.fail _) (.bind ?_ fun _ => .bind (rd_getInodeBuf _) fun _ => .bind ?_ fun _ => ?_)
  · unfold inodeCurrentCopy
    exact .get (fun v w h => by rw [h.cur]) fun _ => .bind (rd_inodeBitGet _ _ _) fun _ => .ite (.pure _) (.bind (rd_inodeBitGet _ _ _) fun _ => .ite (.pure _) (.fail _))
  · unfold inodeIsBranched
    exact .ite (.bind (rd_blockState _) fun _ => .ite (.pure _) (.bind (rd_blockState _) fun _ => .pure _)) (.fail _)
  · have jp : ∀ ci : Cinode, RdV (if false = true then inodeBranch c ci else pure ci) := fun ci => by
      rw [if_neg (by simp)]; exact .pure _
    exact .ite (.ite (.bind (.fail _) jp) (.bind (.pure _) jp)) (.ite (.ite (.bind (.fail _) jp) (.bind (.pure _) jp)) (.bind (.critical _) jp))

theorem rd_seekInode (b : Nat) : RdD (seekInode c b) := by
  unfold seekInode
  refine .get (fun s t hci h => by rw [hci]) fun _ => .ite (.fail _) (.bind ?_ fun _ => .bind ?_ fun _ => .bind ?_ fun _ => ?_)
  · unfold seekCoord
    exact .get (fun s t hci h => by rw [hci]) fun _ => .ite (.pure _) (.ite (.setCi _) (.pure _))
  · unfold seekDindir
    refine .get (fun s t hci h => ?_) fun u => ?_
    · simp only [hci, h.ptrs]
    · cases u.ci.dindirEntry with
      | none => exact .pure _
      | some d =>
        refine .ite (.setCi _) ?_
        cases u.ci.pDindir with
        | none => exact .bind (.liftV (rd_getBuf _ _)) fun _ => .setCi _
        | some x => exact .setCi _
  · unfold seekIndir
    refine .get (fun s t hci h => ?_) fun u => ?_
    · simp only [hci, h.ptrs]
    · cases u.ci.indirEntry with
      | none => exact .pure _
      | some d =>
        refine .ite (.setCi _) ?_
        cases u.ci.pIndir with
        | none => exact .bind (.liftV (rd_getBuf _ _)) fun _ => .setCi _
        | some x => exact .setCi _
  · exact .get (fun s t hci h => by rw [hci]) fun _ => .ite (.fail _) (.pure _)

theorem rd_seekData (b : Nat) : RdD (seekData c b) := by
  unfold seekData
  refine .bind (.attempt (rd_seekInode b)) fun r => ?_
  rcases r with e | a
  · cases e <;> first | exact .pure _ | exact .fail _
  · exact .pure _

theorem rd_seekAndRead (b : Nat) : RdD (seekAndRead c b) := by
  unfold seekAndRead
  exact .bind (rd_seekData b) fun _ => .ite (.bind (.setCi _) fun _ => .pure _) (.pure _)

theorem rd_readUnaligned (start len : Nat) : RdD (readUnaligned c start len) := by
  unfold readUnaligned
  refine .ite (.fail _) (.bind (rd_seekAndRead _) fun _ => .ite (.get (fun s t hci h => ?_) fun _ => .pure _) (.pure _))
  rw [hci, h.bytes]

theorem rd_extentLoop (start first : Nat) : ∀ n run, RdD (extentLoop c start first n run)
  | 0, run => by unfold extentLoop; exact .pure _
  | n + 1, run => by
    unfold extentLoop
    exact .bind (rd_seekData _) fun _ => .ite (.get (fun s t hci h => by rw [hci]) fun _ => .ite (.pure _) (rd_extentLoop start first n _)) (.pure _)

theorem rd_getExtent (start len : Nat) : RdD (getExtent c start len) := by
  unfold getExtent
  refine .bind (rd_seekData _) fun _ => .ite (.get (fun s t hci h => by rw [hci]) fun _ => .bind (rd_extentLoop _ _ _ _) fun _ => .pure _) (.pure _)

theorem rd_readAligned (start count : Nat) : ∀ fuel idx, RdD (readAligned c start count fuel idx)
  | 0, idx => by unfold readAligned; exact .ite (.fail _) (.pure _)
  | fuel + 1, idx => by
    unfold readAligned
    refine .ite (.bind (rd_getExtent _ _) fun r => ?_) (.pure _)
    cases r with
    | none => exact .bind (rd_readAligned start count fuel _) fun _ => .pure _
    | some x =>
      refine .get (fun s t hci h => ?_) fun _ => .bind (rd_readAligned start count fuel _) fun _ => .pure _
      have : readBlocks c s.v x.1 x.2 = readBlocks c t.v x.1 x.2 := by unfold readBlocks; simp only [h.bytes]
      dsimp only; rw [this]

theorem rd_dataRead (start len : Nat) : RdD (dataRead c start len) := by
  unfold dataRead
  refine .get (fun s t hci h => by rw [hci]) fun _ => .ite (.fail _) (.ite (.pure _) (.ite (.pure _) ?_))
  unfold readParts
  exact .bind (.onlyIf (rd_readUnaligned _ _)) fun _ => .bind (.onlyIf (rd_readAligned _ _ _ _)) fun _ => .bind (.onlyIf (rd_readUnaligned _ _)) fun _ => .pure _

theorem rd_dataBuf {f : Blk → DM β} (hf : ∀ x, RdD (f x)) (h : ∀ x y, x.bytes = y.bytes → f x = f y) : RdD (dataBuf >>= f) := by
  intro s t hci hl
  have e : f (s.v.blk (s.ci.pData.getD 0)) = f (t.v.blk (t.ci.pData.getD 0)) := h _ _ (by rw [hci]; exact hl.bytes _)
  obtain ⟨r, ci, h1, h2⟩ := hf (s.v.blk (s.ci.pData.getD 0)) s t hci hl
  refine ⟨r, ci, h1, ?_⟩
  show f (t.v.blk (t.ci.pData.getD 0)) t = _
  rw [← e]; exact h2

theorem direntIno_bytes {x y : Blk} (h : x.bytes = y.bytes) : direntIno c x = direntIno c y := by funext k; unfold direntIno; rw [h]
theorem direntName_bytes {x y : Blk} (h : x.bytes = y.bytes) : direntName c x = direntName c y := by funext k; unfold direntName; rw [h]

theorem lookupBlock_bytes {x y : Blk} (h : x.bytes = y.bytes) (name : List Str.Ch) (len idx : Nat) : ∀ n k free,
    lookupBlock c x name len idx n k free = lookupBlock c y name len idx n k free
  | 0, _, _ => rfl
  | n + 1, k, free => by
    unfold lookupBlock
    rw [direntIno_bytes h, direntName_bytes h, lookupBlock_bytes h name len idx n, lookupBlock_bytes h name len idx n]

theorem rd_lookupLoop (name : List Str.Ch) (len count : Nat) : ∀ fuel idx free, RdD (lookupLoop c name len count fuel idx free)
  | 0, idx, free => by unfold lookupLoop; exact .ite (.pure _) (.fail _)
  | fuel + 1, idx, free => by
    unfold lookupLoop
    refine .ite (.pure _) (.bind (rd_seekAndRead _) fun _ => .ite (rd_dataBuf (fun x => ?_) (fun x y h => ?_)) (rd_lookupLoop name len count fuel _ _))
    · dsimp only
      generalize lookupBlock c x name len idx _ 0 free = z
      obtain ⟨_ | ⟨k, ino⟩, fr⟩ := z
      · exact rd_lookupLoop name len count fuel _ _
      · exact .pure _
    · dsimp only; rw [lookupBlock_bytes h]

theorem rd_dirLookup (name : List Str.Ch) : RdD (dirLookup c name) := by
  unfold dirLookup
  refine .get (fun s t hci h => by rw [hci]) fun _ => .ite (.fail _) (.ite (.fail _) ?_)
  refine .ite (.fail _) (.ite (.fail _) (.bind (rd_lookupLoop _ _ _ _ _ _) fun z => ?_))
  obtain ⟨a, b, d⟩ := z
  exact .ite (.pure _) (.pure _)

theorem readBlock_bytes {x y : Blk} (h : x.bytes = y.bytes) : ∀ n k, readBlock c x n k = readBlock c y n k
  | 0, _ => rfl
  | n + 1, k => by unfold readBlock; rw [direntIno_bytes h, readBlock_bytes h n]

theorem rd_readLoop (count : Nat) : ∀ fuel idx, RdD (readLoop c count fuel idx)
  | 0, idx => by unfold readLoop; exact .ite (.pure _) (.fail _)
  | fuel + 1, idx => by
    unfold readLoop
    refine .ite (.pure _) (.bind (rd_seekAndRead _) fun _ => .ite (rd_dataBuf (fun x => ?_) (fun x y h => ?_)) (rd_readLoop count fuel _))
    · dsimp only
      generalize readBlock c x _ _ = z
      cases z with
      | none => exact rd_readLoop count fuel _
      | some k => exact .pure _
    · dsimp only; rw [readBlock_bytes h, direntIno_bytes h, direntName_bytes h]

theorem rd_dirRead (idx : Nat) : RdD (dirRead c idx) := by
  unfold dirRead
  refine .get (fun s t hci h => by rw [hci]) fun _ => .ite (.fail _) (.ite (.fail _) (.bind (rd_readLoop _ _ _) fun z => ?_))
  rcases z with _ | ⟨k, n, i⟩ <;> exact .pure _

theorem RdV.whenMounted {m : VM α} (h : RdV m) : RdV (whenMounted m) := by
  unfold RedFs.whenMounted
  exact .get (fun v w h => by rw [h.mounted]) fun _ => .ite (.fail _) h
theorem RdV.reply {m : VM α} {f : α → Reply} (h : RdV m) : RdV (reply f m) := .bind h fun _ => .pure _

/-- The calls that look at files. -/
def Looks : Call → Prop
  | .lookup .. | .dirRead .. | .dirParent .. | .read .. | .stat .. | .fileSize .. => True
  | _ => False

theorem rd_exec {k : Call} (hk : Looks k) : RdV (exec c k) := by
  cases k with
  | lookup p name =>
    refine .reply (.whenMounted (.bind (rd_mount _ _) fun _ => .bind (.runCi _ (rd_dirLookup _)) fun z => ?_))
    obtain ⟨_ | _, _⟩ := z
    · exact .pure _
    · exact .fail _
  | dirRead p pos =>
    refine .reply ?_
    show RdV (coreDirRead c p pos)
    intro v w h
    have e : ∀ u : Vol, u.readOnly = true → coreDirRead c p pos u = (whenMounted do
        let ci ← inodeMount c p .dir false
        let (r, ci) ← runCi ci (dirRead c pos)
        pure r : VM _) u := by
      intro u hu
      unfold coreDirRead whenMounted
      simp only [run_bind, run_get]
      cases u.mounted
      · rfl
      · simp only [Bool.not_true, Bool.false_eq_true, if_false, run_bind, run_get, hu]
        rcases inodeMount c p .dir false u with ⟨_ | a, u'⟩
        · rfl
        · dsimp only
          rcases runCi a (dirRead c pos) u' with ⟨_ | b, u''⟩
          · rfl
          · dsimp only; rw [if_neg (by simp)]
    rw [e v h.ro, e w h.ro']
    exact (RdV.whenMounted (.bind (rd_mount _ _) fun _ => .bind (.runCi _ (rd_dirRead _)) fun z => .pure _)) v w h
  | dirParent p =>
    exact .reply (.whenMounted (.ite (.pure _) (.bind (rd_mount _ _) fun _ => .pure _)))
  | read ino start len =>
    refine .reply ?_
    show RdV (coreFileRead c ino start len)
    intro v w h
    have e : ∀ u : Vol, u.readOnly = true → coreFileRead c ino start len u = (whenMounted do
        let ci ← inodeMount c ino .file false
        let (bs, _) ← runCi ci (dataRead c start len)
        pure bs : VM _) u := by
      intro u hu
      unfold coreFileRead whenMounted
      simp only [run_bind, run_get]
      cases u.mounted
      · rfl
      · simp only [Bool.not_true, Bool.false_eq_true, if_false, run_bind, run_get, hu, Bool.and_false]
    rw [e v h.ro, e w h.ro']
    exact (RdV.whenMounted (.bind (rd_mount _ _) fun _ => .bind (.runCi _ (rd_dataRead _ _)) fun z => .pure _)) v w h
  | stat ino => exact .reply (.whenMounted (.bind (rd_mount _ _) fun _ => .pure _))
  | fileSize ino => exact .reply (.whenMounted (.bind (rd_mount _ _) fun _ => .pure _))
  | _ => exact hk.elim

end RedFs
