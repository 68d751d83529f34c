import Verif.Spec.Times
set_option linter.unusedSimpArgs false
set_option linter.unusedVariables false
/-!
Forgetting the stamps: what the calls of `Model/Times.lean` do to the volume, and what they return, is what
the calls of `Model/Exec.lean` do.
-/
namespace RedFs.Times
open RedFs M Str

variable {c : Conf} {clk : Nat → Nat} {α β γ δ : Type}

/-- `m` does to the volume what `m'` does, and returns what `m'` returns, up to `f`. -/
def Er (f : α → β) (m : TM α) (m' : VM β) : Prop := ∀ s, m' s.v = ((m s).1.map f, (m s).2.v)

theorem er_pure {f : α → β} (a : α) {b : β} (h : f a = b) : Er f (pure a) (pure b) := fun s => by subst h; rfl
theorem er_fail {f : α → β} (e : Err) : Er f (fail e) (fail e) := fun s => rfl
theorem er_lift (m : VM α) : Er id (lift m) m := fun s => by
  unfold lift
  rcases m s.v with ⟨_ | _, _⟩ <;> rfl
theorem er_lift' {f : α → β} {m : VM α} {m' : VM β} (h : m' = (do let a ← m; pure (f a))) : Er f (lift m) m' := fun s => by
  subst h
  unfold lift
  rw [run_bind]
  rcases m s.v with ⟨_ | _, _⟩ <;> rfl
theorem er_bind {f : α → β} {g : γ → δ} {m : TM α} {m' : VM β} {k : α → TM γ} {k' : β → VM δ} (h : Er f m m')
    (hk : ∀ a, Er g (k a) (k' (f a))) : Er g (m >>= k) (m' >>= k') := fun s => by
  have := h s
  rw [run_bind, run_bind, this]
  rcases hm : m s with ⟨_ | a, s'⟩
  · rfl
  · exact hk a s'
theorem er_bind_id {g : γ → δ} {m : TM α} {m' : VM α} {k : α → TM γ} {k' : α → VM δ} (h : Er id m m')
    (hk : ∀ a, Er g (k a) (k' a)) : Er g (m >>= k) (m' >>= k') := er_bind h hk
/-- A step that touches only the stamps. -/
theorem er_skip {g : γ → δ} {m : TM α} {k : α → TM γ} {k' : VM δ} (h : ∀ s, ∃ a, (m s).1 = .ok a ∧ (m s).2.v = s.v)
    (hk : ∀ a, Er g (k a) k') : Er g (m >>= k) k' := fun s => by
  obtain ⟨a, h1, h2⟩ := h s
  rw [run_bind]
  rcases hm : m s with ⟨_ | b, s'⟩
  · rw [hm] at h1; cases h1
  · rw [hm] at h2; have := hk b s'; rw [show s'.v = s.v from h2] at this; exact this
/-- ... at the end. -/
theorem er_last {g : γ → δ} {m : TM γ} {d : δ} (h : ∀ s, ∃ a, (m s).1 = .ok a ∧ g a = d ∧ (m s).2.v = s.v) : Er g m (pure d) := fun s => by
  obtain ⟨a, h1, h2, h3⟩ := h s
  rw [h1, h3, run_pure]
  show _ = (Except.ok (g a), _)
  rw [h2]
/-- ... after `m'`. -/
theorem er_then {m : TM α} {m' : VM α} {k : α → TM α} (h : Er id m m') (hk : ∀ a s, (k a s).1 = .ok a ∧ (k a s).2.v = s.v) : Er id (m >>= k) m' := fun s => by
  have := h s
  rw [run_bind, this]
  rcases hm : m s with ⟨e | a, s'⟩
  · rfl
  · show _ = (((k a s').1).map id, (k a s').2.v)
    rw [(hk a s').1, (hk a s').2]
theorem er_attempt {f : α → β} {m : TM α} {m' : VM β} (h : Er f m m') : Er (fun r => r.map f) (attempt m) (attempt m') := fun s => by
  rw [run_attempt, run_attempt, h s]; rfl
theorem er_attempt_id {m : TM α} {m' : VM α} (h : Er id m m') : Er id (attempt m) (attempt m') := fun s => by
  rw [run_attempt, run_attempt, h s]
  rcases (m s).1 with _ | _ <;> rfl
theorem er_ite {f : α → β} {p : Prop} [Decidable p] {a b : TM α} {a' b' : VM β} (h1 : p → Er f a a') (h2 : ¬ p → Er f b b') :
    Er f (if p then a else b) (if p then a' else b') := by
  split
  · next h => exact h1 h
  · next h => exact h2 h
theorem vol_bind (f : Vol → TM α) (s : St) : (vol >>= f) s = f s.v s := rfl
theorem er_vol : Er id vol (get : VM Vol) := er_lift get

theorem setClk_skip (f : Clk → Clk) (s : St) : ∃ a, (setClk f s).1 = .ok a ∧ (setClk f s).2.v = s.v := ⟨(), rfl, rfl⟩
theorem put_skip (ci : Cinode) (a m ch : Bool) (s : St) : ∃ x, (put c clk ci a m ch s).1 = .ok x ∧ (put c clk ci a m ch s).2.v = s.v := by
  unfold put
  split
  · exact ⟨(), rfl, rfl⟩
  split
  · split <;> exact ⟨(), rfl, rfl⟩
  · exact ⟨(), rfl, rfl⟩
/-- What the stamps are after `put`. -/
def putClk (c : Conf) (clk : Nat → Nat) (ci : Cinode) (a m ch : Bool) (t : Clk) : Clk :=
  if ci.nodeBuf = none then t
  else if c.timestamps = true ∧ (a || m || ch) = true then
    if ci.branched = false ∨ ci.dirty = false then { t with red := true }
    else { t.set ci.ino (fun s => s.mark (a && c.atime) m ch (clk t.reads)) with reads := t.reads + 1 }
  else t
theorem put_run (ci : Cinode) (a m ch : Bool) (s : St) : put c clk ci a m ch s = (.ok (), ⟨s.v, putClk c clk ci a m ch s.t⟩) := by
  unfold put putClk
  split
  · rfl
  split
  · split <;> rfl
  · rfl
theorem put_last (ci : Cinode) (a m ch : Bool) : Er id (put c clk ci a m ch) (pure ()) :=
  er_last fun s => by obtain ⟨x, h1, h2⟩ := put_skip (c := c) (clk := clk) ci a m ch s; exact ⟨x, h1, rfl, h2⟩

theorem create_er (ino0 pino mode : Nat) : Er id (create c clk ino0 pino mode) (inodeCreate c ino0 pino mode) := by
  unfold create
  refine er_then (er_lift _) fun ci s => ?_
  split <;> exact ⟨rfl, rfl⟩

theorem transact_er : Er id transact volTransact := by
  have h : volTransact = (do let _ ← (get : VM Vol); volTransact; pure ()) := by
    funext s; simp only [run_bind, run_get]; rcases volTransact s with ⟨_ | _, _⟩ <;> rfl
  rw [h]
  unfold transact
  refine er_bind_id er_vol fun v => er_bind_id (er_lift _) fun _ => er_last fun s => ?_
  split <;> exact ⟨(), rfl, rfl, rfl⟩
theorem rollback_er : Er id (rollback c) (volRollback c) := by
  have h : volRollback c = (do let _ ← (get : VM Vol); volRollback c; pure ()) := by
    funext s; simp only [run_bind, run_get]; rcases volRollback c s with ⟨_ | _, _⟩ <;> rfl
  rw [h]
  unfold rollback
  refine er_bind_id er_vol fun v => er_bind_id (er_lift _) fun _ => er_last fun s => ?_
  split <;> exact ⟨(), rfl, rfl, rfl⟩

theorem whenRw_er {f : α → β} {m : TM α} {m' : VM β} (h : Er f m m') : Er f (whenRw m) (RedFs.whenRw m') := by
  unfold whenRw RedFs.whenRw
  exact er_bind_id er_vol fun v => er_ite (fun _ => er_fail _) fun _ => er_ite (fun _ => er_fail _) fun _ => h
theorem whenMounted_er {f : α → β} {m : TM α} {m' : VM β} (h : Er f m m') : Er f (whenMounted m) (RedFs.whenMounted m') := by
  unfold whenMounted RedFs.whenMounted
  exact er_bind_id er_vol fun v => er_ite (fun _ => er_fail _) fun _ => h
theorem rwOp_er {f : α → β} {m : TM α} {m' : VM β} (h : Er f m m') : Er f (rwOp m) (RedFs.rwOp m') := by
  unfold rwOp RedFs.rwOp
  exact er_bind_id er_vol fun v => er_ite (fun _ => er_fail _) fun _ => h
theorem volFullRetry_er {m : TM α} {m' : VM α} (h : Er id m m') : Er id (volFullRetry m) (RedFs.volFullRetry m') := by
  unfold volFullRetry RedFs.volFullRetry
  refine er_bind_id (er_attempt_id h) fun r => ?_
  cases r with
  | ok a => exact er_pure _ rfl
  | error e =>
    exact er_bind_id er_vol fun v => er_ite (fun _ => er_bind_id transact_er fun _ => h) fun _ => er_fail _
theorem eventTransact_er (ev : Event) : Er id (eventTransact ev) (RedFs.eventTransact ev) := by
  unfold eventTransact RedFs.eventTransact
  exact er_bind_id er_vol fun v => er_ite (fun _ => transact_er) fun _ => er_pure _ rfl
theorem modifyingOp_er {ev : Event} {m : TM α} {m' : VM α} (h : Er id m m') : Er id (modifyingOp ev m) (RedFs.modifyingOp ev m') := by
  unfold modifyingOp RedFs.modifyingOp
  exact whenRw_er (er_bind_id (volFullRetry_er h) fun _ => er_bind_id (eventTransact_er ev) fun _ => er_pure _ rfl)

theorem fileWriteSub_er (ino start len : Nat) (buf : Nat → Byte) : Er id (fileWriteSub c clk ino start len buf) (coreFileWriteSub c ino start len buf) := by
  unfold fileWriteSub coreFileWriteSub
  exact rwOp_er (er_bind_id (er_lift _) fun ci => er_bind_id (er_lift _) fun x => er_skip (put_skip _ _ _ _) fun _ => er_pure _ rfl)
theorem fileTruncateSub_er (ino size : Nat) : Er id (fileTruncateSub c clk ino size) (coreFileTruncateSub c ino size) := by
  unfold fileTruncateSub coreFileTruncateSub
  refine rwOp_er (er_bind_id (er_lift _) fun ci => er_bind_id (er_lift _) fun _ => er_bind_id (er_lift _) fun x => er_bind_id (er_lift _) fun _ => ?_)
  refine er_then (er_lift _) fun _ s => ?_
  obtain ⟨_, h1, h2⟩ := put_skip (c := c) (clk := clk) x.2 false true true s
  exact ⟨h1, h2⟩
theorem fileRead_er (ino start len : Nat) : Er id (fileRead c clk ino start len) (coreFileRead c ino start len) := by
  unfold fileRead coreFileRead
  exact whenMounted_er (er_bind_id er_vol fun v => er_bind_id (er_lift _) fun ci => er_bind_id (er_lift _) fun x => er_skip (put_skip _ _ _ _) fun _ => er_pure _ rfl)
theorem createSub_er (pino : Nat) (name : List Ch) (isDir : Bool) : Er id (createSub c clk pino name isDir) (coreCreateSub c pino name isDir) := by
  unfold createSub coreCreateSub
  refine rwOp_er (er_bind_id (er_lift _) fun p => er_bind_id (create_er _ _ _) fun ci => ?_)
  refine er_bind_id (er_attempt_id (er_bind_id (er_lift _) fun _ => er_lift _)) fun r => ?_
  cases r with
  | ok x => exact er_skip (put_skip _ _ _ _) fun _ => er_pure _ rfl
  | error e =>
    refine er_bind_id (er_attempt_id (er_lift _)) fun r => ?_
    cases r with
    | ok _ => exact er_fail _
    | error e => exact er_lift _
theorem linkSub_er (pino : Nat) (name : List Ch) (ino : Nat) : Er id (linkSub c clk pino name ino) (coreLinkSub c pino name ino) := by
  unfold linkSub coreLinkSub
  refine rwOp_er (er_bind_id (er_lift _) fun p => er_bind_id (er_attempt_id (er_lift _)) fun r => ?_)
  cases r with
  | error e => exact er_fail _
  | ok ci =>
    refine er_ite (fun _ => er_fail _) fun _ => er_bind_id (er_lift _) fun p => er_bind_id (er_lift _) fun ci => er_bind_id (er_lift _) fun x => er_bind_id (er_lift _) fun y => ?_
    exact er_skip (put_skip _ _ _ _) fun _ => put_last _ _ _ _

theorem linkDec_run (ci : Cinode) : inodeLinkDec c ci = (linkDec c ci >>= fun _ => pure ()) := by
  funext v
  unfold inodeLinkDec linkDec
  rw [run_bind]
  split
  · rfl
  split
  · rw [run_bind, run_bind]
    rcases inodeBranch c ci v with ⟨_ | a, v1⟩
    · rfl
    · simp only [run_bind]
      rcases runCi a (setNode fun n => { n with nlink := n.nlink - 1 }) v1 with ⟨_ | _, _⟩ <;> rfl
  · rw [run_bind]
    rcases inodeDelete c ci v with ⟨_ | _, _⟩ <;> rfl
theorem critical_linkDec (ci : Cinode) : criticalAssert (inodeLinkDec c ci) = (criticalAssert (linkDec c ci) >>= fun _ => pure ()) := by
  rw [linkDec_run]
  funext v
  unfold criticalAssert
  simp only [run_bind, run_attempt]
  rcases linkDec c ci v with ⟨e | _, v1⟩ <;> rfl

theorem unlinkSub_er (pino : Nat) (name : List Ch) : Er id (unlinkSub c clk pino name) (coreUnlinkSub c pino name) := by
  unfold unlinkSub coreUnlinkSub
  refine rwOp_er (er_bind_id (er_lift _) fun p => er_bind_id (er_lift _) fun x => ?_)
  obtain ⟨r, p⟩ := x
  cases r with
  | missing k => exact er_fail _
  | found idx ino =>
    refine er_bind_id (er_lift _) fun p => er_bind_id (er_lift _) fun ci => er_ite (fun _ => er_fail _) fun _ => ?_
    refine er_bind_id (er_lift _) fun _ => er_bind_id (er_lift _) fun x => er_bind_id (er_lift _) fun _ => er_bind_id (er_lift _) fun _ => ?_
    rw [critical_linkDec]
    exact er_bind_id (er_lift _) fun ci => er_skip (put_skip _ _ _ _) fun _ => put_last _ _ _ _

/-- The inode that was replaced. -/
def replaced : Option (Parents × Cinode × Option Cinode) → Option Cinode
  | none => none
  | some x => x.2.2

theorem renameMove_run (p : Parents) (srcIdx srcIno dstIdx dstIno : Nat) (name : List Ch) (len : Nat) :
    RedFs.renameMove c p srcIdx srcIno dstIdx dstIno name len = (renameMove c p srcIdx srcIno dstIdx dstIno name len >>= fun x => pure x.2.2) := by
  funext v
  unfold RedFs.renameMove renameMove
  simp only [run_bind]
  rcases inodeMount c srcIno .either true v with ⟨_ | src, v1⟩
  · rfl
  dsimp only
  rcases renameReplaced c src dstIno v1 with ⟨_ | dst, v2⟩
  · rfl
  dsimp only
  have tail : ∀ w : Vol, (renameEntries c p src.ino srcIdx dstIdx dstIno name len >>= fun p => runCi src (setNode fun n => { n with pinode := p.getDst.ino }) >>= fun _ => pure dst : VM (Option Cinode)) w =
      ((renameEntries c p src.ino srcIdx dstIdx dstIno name len >>= fun p => runCi src (setNode fun n => { n with pinode := p.getDst.ino }) >>= fun x => pure (p, x.2, dst) : VM (Parents × Cinode × Option Cinode)) >>= fun x => pure x.2.2) w := by
    intro w
    simp only [run_bind]
    rcases renameEntries c p src.ino srcIdx dstIdx dstIno name len w with ⟨_ | q, w1⟩
    · rfl
    dsimp only
    rcases runCi src (setNode fun n => { n with pinode := q.getDst.ino }) w1 with ⟨_ | _, _⟩ <;> rfl
  cases src.dir
  · exact tail v2
  · show _ = _
    simp only [if_true, run_bind]
    rcases cyclicCheck c src.ino p.getDst v2 with ⟨_ | _, v3⟩
    · rfl
    · exact tail v3

theorem dirRename_run (p : Parents) (s d : List Ch) : RedFs.dirRename c p s d = (dirRename c p s d >>= fun x => pure (replaced x)) := by
  funext v
  unfold RedFs.dirRename dirRename
  rw [run_bind]
  split
  · rfl
  split
  · rfl
  dsimp only
  split
  · rfl
  simp only [run_bind]
  rcases onSrcP p (dirLookup c s) v with ⟨_ | ⟨r, p⟩, v⟩
  · rfl
  dsimp only
  simp only [run_ofExcept]
  rcases r with _ | ⟨i, j⟩ | k
  · rfl
  · dsimp only
    simp only [run_bind]
    rcases onDstP p (dirLookup c d) v with ⟨_ | ⟨r, p⟩, v⟩
    · rfl
    dsimp only
    rcases renameTarget c r v with ⟨_ | ⟨a, b⟩, v⟩
    · rfl
    dsimp only
    split
    · rfl
    rw [renameMove_run, run_bind, run_bind]
    rcases renameMove c p i j a b d (nameLen c.sep d) v with ⟨_ | _, _⟩ <;> rfl
  · rfl

theorem renameSub_er (srcP : Nat) (srcName : List Ch) (dstP : Nat) (dstName : List Ch) :
    Er id (renameSub c clk srcP srcName dstP dstName) (coreRenameSub c srcP srcName dstP dstName) := by
  unfold renameSub coreRenameSub
  refine rwOp_er (er_bind_id (er_lift _) fun sp => ?_)
  have hrest : ∀ dp, Er id (do
      match ← lift (dirRename c ⟨sp, dp⟩ srcName dstName) with
      | none => pure ()
      | some (p, src, dst) => do
        (match dst with
         | none => pure ()
         | some dst => lift (criticalAssert (inodeLinkDec c dst)))
        put c clk src false false true
        put c clk p.getDst false true true
        put c clk (if p.dst.isSome then p.src else { p.src with nodeBuf := none }) false true true : TM Unit)
      (do
      match ← RedFs.dirRename c ⟨sp, dp⟩ srcName dstName with
      | none => pure ()
      | some dst => criticalAssert (inodeLinkDec c dst)) := by
    intro dp
    refine er_bind (er_lift' (dirRename_run _ _ _)) fun x => ?_
    rcases x with _ | ⟨p, src, dst⟩
    · exact er_pure _ rfl
    obtain ⟨q, hq⟩ : ∃ q : Cinode, q = if p.dst.isSome then p.src else { p.src with nodeBuf := none } := ⟨_, rfl⟩
    dsimp only
    rw [← hq]
    have hp : ∀ s, ∃ t, (put c clk src false false true >>= fun _ => put c clk p.getDst false true true >>= fun _ => put c clk q false true true : TM Unit) s = (.ok (), ⟨s.v, t⟩) := by
      intro s
      simp only [run_bind, put_run]
      exact ⟨_, rfl⟩
    cases dst with
    | none =>
      refine er_last fun s => ?_
      obtain ⟨t, ht⟩ := hp s
      refine ⟨(), ?_, rfl, ?_⟩
      · show ((put c clk src false false true >>= fun _ => put c clk p.getDst false true true >>= fun _ => put c clk q false true true : TM Unit) s).1 = _
        rw [ht]
      · show ((put c clk src false false true >>= fun _ => put c clk p.getDst false true true >>= fun _ => put c clk q false true true : TM Unit) s).2.v = _
        rw [ht]
    | some dst =>
      refine er_then (er_lift _) fun _ s => ?_
      obtain ⟨t, ht⟩ := hp s
      rw [ht]; exact ⟨rfl, rfl⟩
  exact er_ite (fun _ => hrest none) fun _ => er_bind_id (er_lift _) fun dp => hrest (some dp)

theorem dirReadCall_er (ino pos : Nat) : Er id (dirReadCall c clk ino pos) (coreDirRead c ino pos) := by
  unfold dirReadCall coreDirRead
  refine whenMounted_er (er_bind_id er_vol fun v => er_bind_id (er_lift _) fun ci => er_bind_id (er_lift _) fun x => ?_)
  exact er_ite (fun _ => er_bind_id (er_lift _) fun _ => er_skip (put_skip _ _ _ _) fun _ => er_pure _ rfl) fun _ => er_pure _ rfl

theorem mountCall_er (ro : Bool) : Er id (mountCall c ro) (apiMount c ro) := by
  intro s
  have : mountCall c ro s = (do lift (apiMount c ro); if s.v.mounted then pure () else setClk fun t => { t with work := t.comm } : TM Unit) s := rfl
  rw [this]
  refine er_then (er_lift _) (fun _ s => ?_) s
  split <;> exact ⟨rfl, rfl⟩
theorem unmountCall_er : Er id (unmountCall c) (apiUnmount c) := by
  intro s
  cases hm : s.v.mounted
  · have h : unmountCall c s = lift (apiUnmount c) s := by
      unfold unmountCall
      rw [vol_bind, hm]; rfl
    rw [h]; exact er_lift _ s
  · have h : unmountCall c s = (do
        (if !s.v.readOnly && s.v.transMask.testBit 0 then transact else pure ())
        lift (modify Vol.discardAll)
        lift (modify fun v => { v with mounted := false }) : TM Unit) s := by
      unfold unmountCall
      rw [vol_bind, hm]; rfl
    have h' : apiUnmount c s.v = (do
        (if !s.v.readOnly && s.v.transMask.testBit 0 then volTransact else pure ())
        modify Vol.discardAll
        modify fun v => { v with mounted := false } : VM Unit) s.v := by
      unfold apiUnmount coreUnmount
      simp only [run_bind, run_get]
      rw [hm]
      show (if (!s.v.readOnly && s.v.transMask.testBit 0) = true then _ else _ : VM Unit) s.v = _
      cases (!s.v.readOnly && s.v.transMask.testBit 0) <;> rfl
    rw [h, h']
    exact er_bind_id (er_ite (fun _ => transact_er) fun _ => er_pure _ rfl) (fun _ => er_bind_id (er_lift _) fun _ => er_lift _) s

theorem er_reply {f : α → Reply} {m : TM α} {m' : VM α} (h : Er id m m') : Er id (do let a ← m; pure (f a) : TM Reply) (reply f m') :=
  er_bind_id h fun _ => er_pure _ rfl

/-- The volume and the results do not depend on the stamps. -/
theorem exec_er (k : Call) : Er id (exec c clk k) (RedFs.exec c k) := by
  cases k with
  | create p name isDir => exact er_reply (modifyingOp_er (createSub_er _ _ _))
  | link p name ino => exact er_reply (f := fun _ => .unit) (modifyingOp_er (linkSub_er _ _ _))
  | unlink p name => exact er_reply (f := fun _ => .unit) (modifyingOp_er (unlinkSub_er _ _))
  | rename p name p' name' => exact er_reply (f := fun _ => .unit) (modifyingOp_er (renameSub_er _ _ _ _))
  | write ino start len buf => exact er_reply (modifyingOp_er (fileWriteSub_er _ _ _ _))
  | truncate ino size => exact er_reply (f := fun _ => .unit) (modifyingOp_er (fileTruncateSub_er _ _))
  | read ino start len => exact er_reply (fileRead_er _ _ _)
  | dirRead p pos => exact er_reply (f := fun x => .entry x.1 x.2) (dirReadCall_er _ _)
  | transact => exact er_reply (f := fun _ => .unit) (whenRw_er transact_er)
  | rollback => exact er_reply (f := fun _ => .unit) (whenRw_er rollback_er)
  | mount ro => exact er_reply (f := fun _ => .unit) (mountCall_er ro)
  | unmount => exact er_reply (f := fun _ => .unit) unmountCall_er
  | _ => exact er_lift _

theorem exec_erase {k : Call} {s s' : St} {r : Except Err Reply} (h : exec c clk k s = (r, s')) : RedFs.exec c k s.v = (r, s'.v) := by
  have := exec_er (c := c) (clk := clk) k s
  rw [h] at this
  rw [this]
  cases r <;> rfl

end RedFs.Times
