import Verif.Props.System
import Verif.Lemmas.Reserve
set_option linter.unusedSimpArgs false
set_option linter.unusedVariables false
/-!
When the file system commits by itself, what it does when the volume is full, and what it does on a
volume that is read-only or not mounted (C17, C18, C25, C26, C42).
-/
namespace RedFs.Props.Policy
open RedFs RedFs.Props.System
open M Vol

variable {c : Conf} {v v' w : Vol} {k : Call} {r : Except Err Reply} {ev : Event}

/-- One attempt at a modifying call: what the call does between the checks in front of it and the
automatic transactions behind it.  These are the static functions of core.c: `CoreCreate`
(core.c:714-785), `CoreLink` (873-925), `CoreUnlink` (1009-1097), `CoreRename` (1242-1371),
`CoreFileWrite` (1660-1687), `CoreFileTruncate` (1769-1802). -/
def tryOnce (c : Conf) : Call → VM Reply
  | .create p name isDir => reply .num (coreCreateSub c p name isDir)
  | .link p name ino => reply (fun _ => .unit) (coreLinkSub c p name ino)
  | .unlink p name => reply (fun _ => .unit) (coreUnlinkSub c p name)
  | .rename p name p' name' => reply (fun _ => .unit) (coreRenameSub c p name p' name')
  | .write ino start len buf => reply .num (coreFileWriteSub c ino start len buf)
  | .truncate ino size => reply (fun _ => .unit) (coreFileTruncateSub c ino size)
  | _ => pure .unit

/-- A call that modifies files. -/
def Modifies (k : Call) (ev : Event) : Prop := k.event = some ev ∧ k ≠ .unmount

/-- The file whose contents the call writes or truncates. -/
def wr : Call → Nat → Prop
  | .write ino _ _ _ => (· = ino)
  | .truncate ino _ => (· = ino)
  | _ => fun _ => False

/-- The number of transactions committed so far (in this system). -/
def commits (v : Vol) : Nat := v.hist.countP fun e => e.next.isSome

theorem exec_modify (hc : c.SysOk) (hk : k.Ok c) (hm : Modifies k ev) :
    ∃ (α : Type) (f : α → Reply) (m : VM α) (R : Files → Except Err α → Files → Prop),
      exec c k = reply f (modifyingOp ev m) ∧ tryOnce c k = reply f m ∧ OpSpec c (Sound c) m R (wr k) ∧ Clean R := by
  have ok := hc.ok
  obtain ⟨hev, hu⟩ := hm
  cases k with
  | create p name isDir =>
    have h := coreCreateSub_spec ok (hc.posixOk hk.1) p hk.2 isDir
    rw [← Sound.posix hk.1] at h
    injection hev with hev; subst hev
    exact ⟨_, _, _, _, rfl, rfl, h, create_clean _ _ _⟩
  | link p name ino =>
    have h := coreLinkSub_spec ok (hc.posixOk hk.1) p hk.2 ino
    rw [← Sound.posix hk.1] at h
    injection hev with hev; subst hev
    exact ⟨_, _, _, _, rfl, rfl, h, link_clean _ _ _⟩
  | unlink p name =>
    have h := coreUnlinkSub_spec ok (hc.posixOk hk.1) p hk.2
    rw [← Sound.posix hk.1] at h
    injection hev with hev; subst hev
    exact ⟨_, _, _, _, rfl, rfl, h, unlink_clean _ _⟩
  | rename p name p' name' =>
    have h := coreRenameSub_spec ok (hc.posixOk hk.1) hk.2.1 hk.2.2 (ps := p) (pd := p')
    rw [← Sound.posix hk.1] at h
    injection hev with hev; subst hev
    exact ⟨_, _, _, _, rfl, rfl, h, rename_clean _ _ _ _⟩
  | write ino start len buf =>
    injection hev with hev; subst hev
    exact ⟨_, _, _, _, rfl, rfl, coreFileWriteSub_spec ok sound_data ino start len buf, write_clean _ _ _ _⟩
  | truncate ino size =>
    injection hev with hev; subst hev
    exact ⟨_, _, _, _, rfl, rfl, coreFileTruncateSub_spec ok sound_data ino size, truncate_clean _ _⟩
  | unmount => exact absurd rfl hu
  | _ => cases hev

theorem Cmtd.commits (h : Cmtd c v v') : commits v' = commits v ∧ v'.hist = v.hist ∨ commits v' = commits v + 1 := by
  rcases h.epochs with rfl | ⟨e2, e1, hh, h1, h2, m, h3, h4⟩
  · exact Or.inl ⟨rfl, rfl⟩
  · right
    unfold Policy.commits
    rw [hh, List.countP_cons, List.countP_cons, h3, h1]
    rfl

/-- How a modifying call goes, in terms of single attempts. -/
theorem modify_how (hc : c.SysOk) (h : Inv c (Sound c) v) (hro : v.readOnly = false) (hk : k.Ok c) (hm : Modifies k ev) (he : exec c k v = (r, v')) :
    ∃ r1 v1, tryOnce c k v = (r1, v1) ∧ Eff c (Sound c) v v1 (wr k) ∧ ((∀ e, r1 = .error e → files c v1 = files c v)) ∧
    ((r1 = .error .enospc ∧ v.on .volfull = true ∧ 0 < v1.almostFree ∧
        ∃ v2 v3, volTransact v1 = (.ok (), v2) ∧ Cmtd c v1 v2 ∧ Inv c (Sound c) v2 ∧ tryOnce c k v2 = (r, v3) ∧ Eff c (Sound c) v2 v3 (wr k) ∧
          (∀ e, r = .error e → files c v3 = files c v2) ∧
          ((r.toBool = true ∧ v.on ev = true) ∧ volTransact v3 = (.ok (), v') ∧ Cmtd c v3 v' ∨ ¬ (r.toBool = true ∧ v.on ev = true) ∧ v' = v3)) ∨
     (¬ (r1 = .error .enospc ∧ v.on .volfull = true ∧ 0 < v1.almostFree) ∧ r = r1 ∧
          ((r.toBool = true ∧ v.on ev = true) ∧ volTransact v1 = (.ok (), v') ∧ Cmtd c v1 v' ∨ ¬ (r.toBool = true ∧ v.on ev = true) ∧ v' = v1))) := by
  obtain ⟨α, f, m, R, h1, h2, h3, h4⟩ := exec_modify hc hk hm
  obtain ⟨r0, v0, e0, O⟩ := modifyingOp_spec hc.ok (ev := ev) h3 h4 h hro
  rw [h1, reply_run e0] at he
  obtain ⟨rfl, rfl⟩ := Prod.mk.inj he
  obtain ⟨r1, v1, e1, E1, how⟩ := O.how
  have hon : v1.on .volfull = v.on .volfull := by unfold Vol.on; rw [E1.step.transMask]
  have hmap : ∀ (x : Except Err α) e, x.map f = .error e → x = .error e := by
    intro x e hx; cases x with
    | error e' => injection hx with hx; rw [hx]
    | ok a => cases hx
  have last : ∀ w, ((∃ e, r0 = .error e ∧ v0 = w) ∨ ∃ a, r0 = .ok a ∧ ((v.on ev = true ∧ volTransact w = (.ok (), v0) ∧ Cmtd c w v0) ∨ (v.on ev = false ∧ v0 = w))) →
      (((r0.map f).toBool = true ∧ v.on ev = true) ∧ volTransact w = (.ok (), v0) ∧ Cmtd c w v0 ∨ ¬ ((r0.map f).toBool = true ∧ v.on ev = true) ∧ v0 = w) := by
    rintro w (⟨e, rfl, rfl⟩ | ⟨a, rfl, ⟨g1, g2, g3⟩ | ⟨g1, g2⟩⟩)
    · exact Or.inr ⟨(fun hh => by cases hh.1), rfl⟩
    · exact Or.inl ⟨⟨rfl, g1⟩, g2, g3⟩
    · exact Or.inr ⟨(fun hh => by rw [g1] at hh; cases hh.2), g2⟩
  refine ⟨r1.map f, v1, by rw [h2]; exact reply_run e1, E1, ?_, ?_⟩
  · intro e he
    have := hmap _ _ he
    obtain ⟨r1', v1', e1', _, R1⟩ := h3 v h hro
    rw [e1] at e1'; obtain ⟨rfl, rfl⟩ := Prod.mk.inj e1'
    rw [this] at R1; exact h4 _ _ _ R1
  · rcases how with ⟨g1, g2, g3, g4, v2, v3, g5, C, i2, g6, E3, R3, hlast⟩ | ⟨g1, g2, g3, hlast⟩
    · left
      refine ⟨by rw [g1]; rfl, hon ▸ g2, g3, v2, v3, g5, C, i2, by rw [h2]; exact reply_run g6, E3, ?_, last _ hlast⟩
      intro e he
      have := hmap _ _ he
      rw [this] at R3; exact h4 _ _ _ R3
    · right
      refine ⟨?_, by rw [g2], last _ hlast⟩
      rintro ⟨x1, x2, x3⟩
      exact g1 ⟨hmap _ _ x1, hon ▸ x2, x3⟩

/-! ### C17 -/

/-- Deleting, or making a file shorter. -/
def Shrinks (c : Conf) (F : Files) : Call → Prop
  | .unlink _ _ => c.canDelete = true
  | .truncate ino size => (c.canTruncate = true ∨ (c.posix && c.canDelete) = true) ∧ ∃ f, Spec.IsReg F ino f ∧ size ≤ f.size
  | _ => False

theorem try_room (hc : c.SysOk) (h : Inv c (Sound c) v) (hro : v.readOnly = false) (hk : k.Ok c) (hs : Shrinks c (files c v) k) (hr : Room c v) :
    (tryOnce c k v).1 ≠ .error .enospc := by
  cases k with
  | unlink p name =>
    have h' := h; rw [Sound.posix hk.1] at h'
    have := unlink_room hc.ok (hc.posixOk hk.1) h' hro hr hs p hk.2
    show (reply _ (coreUnlinkSub c p name) v).1 ≠ _
    rcases hx : coreUnlinkSub c p name v with ⟨r0 | a, v0⟩
    · rw [hx] at this; rw [reply_run hx]
      intro hh; injection hh with hh; subst hh; exact this rfl
    · rw [reply_run hx]; intro hh; cases hh
  | truncate ino size =>
    obtain ⟨h1, f, h2, h3⟩ := hs
    obtain ⟨v0, hx⟩ := truncate_room hc.ok h hro hr h1 h2 h3
    show (reply _ (coreFileTruncateSub c ino size) v).1 ≠ _
    rw [reply_run hx]; intro hh; cases hh
  | _ => exact absurd hs id

theorem shrink_ok (hc : c.SysOk) (h : Inv c (Sound c) v) (hk : k.Ok c) (hs : Shrinks c (files c v) k)
    (ha : v.almostFree = 0 ∨ v.on .volfull = true) (he : exec c k v = (r, v')) : r ≠ .error .enospc := by
  cases hro : v.readOnly
  · obtain ⟨ev, hm⟩ : ∃ ev, Modifies k ev := by
      cases k with
      | unlink p name => exact ⟨_, rfl, fun h => by cases h⟩
      | truncate ino size => exact ⟨_, rfl, fun h => by cases h⟩
      | _ => exact absurd hs id
    obtain ⟨r1, v1, e1, E1, F1, how⟩ := modify_how hc h hro hk hm he
    rcases how with ⟨g1, g2, g3, v2, v3, g5, C, i2, g6, _⟩ | ⟨g1, rfl, _⟩
    · have hF : files c v2 = files c v := C.files.trans (F1 _ g1)
      have := try_room hc i2 (by rw [C.com.readOnly, E1.readOnly]; exact hro) hk (by rw [hF]; exact hs) (i2.room hc.ok C.com.almost)
      rw [g6] at this; exact this
    · intro hr
      have ha0 : v.almostFree = 0 := by
        rcases ha with ha | ha
        · exact ha
        · have := E1.step.afree
          have : ¬ 0 < v1.almostFree := fun h0 => g1 ⟨hr, ha, h0⟩
          omega
      have := try_room hc h hro hk hs (h.room hc.ok ha0)
      rw [e1] at this; exact this hr
  · cases k with
    | unlink p name =>
      have : exec c (.unlink p name) v = (.error .erofs, v) := reply_run (whenRw_ro h.mounted hro)
      rw [he] at this; rw [(Prod.mk.inj this).1]; intro hh; cases hh
    | truncate ino size =>
      have : exec c (.truncate ino size) v = (.error .erofs, v) := reply_run (whenRw_ro h.mounted hro)
      rw [he] at this; rw [(Prod.mk.inj this).1]; intro hh; cases hh
    | _ => exact absurd hs id

/-- **C17** However full the volume is, deleting a file or directory, or making a file shorter, right
after a transaction (or a rollback, or after mounting) does not fail for lack of space. -/
theorem C17_shrink_after_transaction (hc : c.SysOk) {u : Vol} (hu : Reach c u) {k0 : Call} {r0 : Reply}
    (h0 : k0 = .transact ∨ k0 = .rollback ∨ (∃ ro, k0 = .mount ro) ∧ u.mounted = false) (he0 : exec c k0 u = (.ok r0, v))
    (hm : v.mounted = true) (hk : k.Ok c) (hs : Shrinks c (files c v) k) (he : exec c k v = (r, v')) : r ≠ .error .enospc := by
  have hk0 : k0.Ok c := by rcases h0 with rfl | rfl | ⟨⟨ro, rfl⟩, _⟩ <;> trivial
  have hi := Reach.up hc (hu.call hk0 he0) hm
  refine shrink_ok hc hi hk hs (Or.inl ?_) he
  have hrw : ∀ {m : VM Unit}, exec c k0 u = reply (fun _ => .unit) (whenRw m) u → u.mounted = true ∧ u.readOnly = false := by
    intro m e
    rw [he0] at e
    cases hmu : u.mounted
    · rw [reply_run (whenRw_off hmu)] at e; cases (Prod.mk.inj e).1
    · cases hro : u.readOnly
      · exact ⟨rfl, rfl⟩
      · rw [reply_run (whenRw_ro hmu hro)] at e; cases (Prod.mk.inj e).1
  rcases h0 with rfl | rfl | ⟨⟨ro, rfl⟩, hmu⟩
  · obtain ⟨hmu, hro⟩ := hrw rfl
    obtain ⟨v1, e, i', C⟩ := (Reach.up hc hu hmu).transact hc.ok
    have : exec c .transact u = (.ok .unit, v1) := reply_run (r := .ok ()) (by unfold coreVolTransact; rw [whenRw_run hmu hro]; exact e)
    rw [he0] at this; rw [(Prod.mk.inj this).2]; exact C.com.almost
  · obtain ⟨hmu, hro⟩ := hrw rfl
    have hi := Reach.up hc hu hmu
    obtain ⟨v1, e, _, _, _, _, _, _, _, R⟩ := hi.rollback hc.ok hro
    have : exec c .rollback u = (.ok .unit, v1) := reply_run (r := .ok ()) (by unfold coreVolRollback; rw [whenRw_run hmu hro]; exact e)
    rw [he0] at this; rw [(Prod.mk.inj this).2]; exact R
  · obtain ⟨s, ha⟩ := hu.abs hc
    have off : exec c (.mount ro) u = reply (fun _ => .unit) (volMount c ro) u := by
      show reply _ (apiMount c ro) u = _
      unfold reply apiMount; simp only [run_bind, run_get, hmu]; rfl
    cases ha with
    | up h1 h2 => rw [h2.mounted] at hmu; cases hmu
    | off h1 h2 h3 h4 =>
      obtain ⟨i, hd⟩ := h2.disk
      obtain ⟨v1, e, M⟩ := volMount_spec hc.ok hd ro
      rw [off, reply_run e] at he0
      rw [← (Prod.mk.inj he0).2]; exact M.almost
    | none h1 h2 =>
      obtain ⟨v1, e, _⟩ := apiMount_blank (ro := ro) h2
      rw [off, reply_run e] at he0
      cases (Prod.mk.inj he0).1

/-- **C17** If the "volume full" event is enabled, they never fail for lack of space, at any time. -/
theorem C17_shrink_with_volfull (hc : c.SysOk) (h : Reach c v) (hm : v.mounted = true) (hon : v.on .volfull = true)
    (hk : k.Ok c) (hs : Shrinks c (files c v) k) (he : exec c k v = (r, v')) : r ≠ .error .enospc :=
  shrink_ok hc (Reach.up hc h hm) hk hs (Or.inr hon) he

/-! ### A full volume -/

/-- A volume of 18 blocks, of which 7 can be allocated. -/
def fullConf : Conf := { demoConf with blockCount := 18 }
theorem full_sys : fullConf.SysOk :=
  ⟨⟨⟨7, by decide, by decide, rfl⟩, by decide, by decide, by decide, by decide, by decide, by decide⟩, fun _ => ⟨rfl, by decide, by decide, by decide⟩⟩
/-- The volume is filled and committed. -/
def fullCalls : List Call := [.mount false, .maskSet 1024, .create 2 nmA false, .write 3 0 300 (fun _ => 1), .transact]
def fullVol : Vol := (runCalls fullConf fullCalls (freshVol fullConf)).2
theorem full_reach : Reach fullConf fullVol := by
  refine (fresh_reach _).calls ?_
  intro k hk
  simp only [fullCalls, List.mem_cons, List.mem_nil_iff, or_false] at hk
  rcases hk with rfl | rfl | rfl | rfl | rfl <;> trivial
def isErr (e : Err) : Except Err Reply → Bool | .error e' => e == e' | _ => false

/-- The demo volume is full: not even one byte can be written.  The file can be made shorter. -/
theorem full_full : fullVol.mounted = true ∧ fullVol.on .volfull = true ∧ isErr .enospc (exec fullConf (.write 3 0 1 fun _ => 1) fullVol).1 = true := by decide +kernel
theorem full_shrinks : Shrinks fullConf (files fullConf fullVol) (.truncate 3 100) ∧ Shrinks fullConf (files fullConf fullVol) (.unlink 2 nmA) := by
  have h : (files fullConf fullVol 3).map (fun f => (f.mode, f.size)) = some (modeReg, 300) := by decide +kernel
  refine ⟨⟨Or.inl rfl, ?_⟩, rfl⟩
  rcases hf : files fullConf fullVol 3 with _ | f
  · rw [hf] at h; cases h
  · rw [hf] at h; injection h with h
    obtain ⟨h1, h2⟩ := Prod.mk.inj h
    exact ⟨f, ⟨hf, h1⟩, by rw [h2]; decide⟩

/-! ### C18 -/

/-- **C18** A call that modifies files is attempted once.  If that attempt finds no space, the "volume full"
event is enabled, and committing would free blocks, then the state is committed - which leaves the
files as they were before the call and makes more blocks free than before - and the call is attempted
once more, and that is its result.  In any other case the result is that of the first attempt, and
nothing is committed but the result of the call. -/
theorem C18_retry_policy (hc : c.SysOk) (h : Reach c v) (hm : v.mounted = true) (hro : v.readOnly = false) (hk : k.Ok c) (hmod : Modifies k ev)
    (he : exec c k v = (r, v')) : ∃ r1 v1, tryOnce c k v = (r1, v1) ∧ commits v1 = commits v ∧
    let freed := countIn (fun b => cmtBit c v1 b && !curBit c v1 b) c.firstAlloc c.blockCount
    ((r1 = .error .enospc ∧ v.on .volfull = true ∧ 0 < freed ∧
        ∃ v2 v3, tryOnce c k v2 = (r, v3) ∧
          -- the state committed is the one before the call, and committing it has freed blocks
          files c v2 = files c v ∧ committedFiles c v2 = files c v ∧ v2.work.freeBlocks = v1.work.freeBlocks + freed ∧ v2.almostFree = 0 ∧
          commits v2 ≤ commits v + 1 ∧ commits v3 = commits v2 ∧
          (if r.toBool = true ∧ v.on ev = true then commits v' ≤ commits v3 + 1 ∧ committedFiles c v' = files c v3 ∧ files c v' = files c v3 else v' = v3)) ∨
     (¬ (r1 = .error .enospc ∧ v.on .volfull = true ∧ 0 < freed) ∧ r = r1 ∧
          (if r.toBool = true ∧ v.on ev = true then commits v' ≤ commits v1 + 1 ∧ committedFiles c v' = files c v1 ∧ files c v' = files c v1 else v' = v1))) := by
  have hi := Reach.up hc h hm
  obtain ⟨r1, v1, e1, E1, F1, how⟩ := modify_how hc hi hro hk hmod he
  have hfr : countIn (fun b => cmtBit c v1 b && !curBit c v1 b) c.firstAlloc c.blockCount = v1.almostFree := by
    rw [E1.inv.wf.vol.space.afree]; unfold afreeCount; congr 1; funext b; rw [Bool.and_comm]
  have hst : ∀ {a b : Vol}, Eff c (Sound c) a b (wr k) → commits b = commits a := fun E => by unfold commits; rw [E.step.hist]
  have hcm : ∀ {a b : Vol}, Cmtd c a b → commits b ≤ commits a + 1 := fun C => by
    rcases Cmtd.commits C with ⟨h1, _⟩ | h1 <;> omega
  have last : ∀ w, ((r.toBool = true ∧ v.on ev = true) ∧ volTransact w = (.ok (), v') ∧ Cmtd c w v' ∨ ¬ (r.toBool = true ∧ v.on ev = true) ∧ v' = w) →
      (if r.toBool = true ∧ v.on ev = true then commits v' ≤ commits w + 1 ∧ committedFiles c v' = files c w ∧ files c v' = files c w else v' = w) := by
    rintro w (⟨g1, _, C⟩ | ⟨g1, g2⟩)
    · rw [if_pos g1]; exact ⟨hcm C, C.cfiles, C.files⟩
    · rw [if_neg g1]; exact g2
  refine ⟨r1, v1, e1, hst E1, ?_⟩
  dsimp only
  rw [hfr]
  rcases how with ⟨g1, g2, g3, v2, v3, g5, C, i2, g6, E3, _, hlast⟩ | ⟨g1, g2, hlast⟩
  · left
    refine ⟨g1, g2, g3, v2, v3, g6, C.files.trans (F1 _ g1), C.cfiles.trans (F1 _ g1), C.free, C.com.almost, ?_, hst E3, last _ hlast⟩
    have := hcm C; rw [hst E1] at this; exact this
  · right
    exact ⟨g1, g2, last _ hlast⟩

/-- **C18** Without the "volume full" event there is no hidden transaction: a call that fails, or whose
own event is not enabled, commits nothing. -/
theorem C18_no_hidden_transaction (hc : c.SysOk) (h : Reach c v) (hm : v.mounted = true) (hk : k.Ok c) (hmod : Modifies k ev)
    (hvf : v.on .volfull = false) (hno : r.toBool = false ∨ v.on ev = false) (he : exec c k v = (r, v')) :
    v'.hist = v.hist ∧ committedFiles c v' = committedFiles c v := by
  have hi := Reach.up hc h hm
  cases hro : v.readOnly
  · obtain ⟨r1, v1, e1, E1, F1, how⟩ := modify_how hc hi hro hk hmod he
    rcases how with ⟨g1, g2, _⟩ | ⟨g1, g2, ⟨g3, _⟩ | ⟨_, g3⟩⟩
    · rw [hvf] at g2; cases g2
    · rcases hno with hno | hno
      · rw [hno] at g3; cases g3.1
      · rw [hno] at g3; cases g3.2
    · rw [g3]; exact ⟨E1.step.hist, E1.cfiles hc.ok hi⟩
  · obtain ⟨α, f, m, R, h1, _⟩ := exec_modify hc hk hmod
    have : exec c k v = (.error .erofs, v) := by rw [h1]; exact reply_run (whenRw_ro hm hro)
    rw [he] at this; rw [(Prod.mk.inj this).2]; exact ⟨rfl, rfl⟩

/-- **C18** With it, there is at most one transaction besides the one for the call's own event. -/
theorem C18_at_most_one (hc : c.SysOk) (h : Reach c v) (hm : v.mounted = true) (hk : k.Ok c) (hmod : Modifies k ev)
    (he : exec c k v = (r, v')) : commits v' ≤ commits v + 1 + (if r.toBool = true ∧ v.on ev = true then 1 else 0) := by
  cases hro : v.readOnly
  · obtain ⟨r1, v1, e1, hc1, how⟩ := C18_retry_policy hc h hm hro hk hmod he
    dsimp only at how
    rcases how with ⟨_, _, _, v2, v3, _, _, _, _, _, g1, g2, g3⟩ | ⟨_, _, g3⟩
    · split at g3
      · next hx => rw [if_pos hx]; omega
      · next hx => rw [if_neg hx, g3]; omega
    · split at g3
      · next hx => rw [if_pos hx]; omega
      · next hx => rw [if_neg hx, g3]; omega
  · obtain ⟨α, f, m, R, h1, _⟩ := exec_modify hc hk hmod
    have : exec c k v = (.error .erofs, v) := by rw [h1]; exact reply_run (whenRw_ro hm hro)
    rw [he] at this; rw [(Prod.mk.inj this).2]; omega

/-- After the file has been made shorter on the full volume, the first attempt at another write finds no space; the call succeeds. -/
def fullVol2 : Vol := (exec fullConf (.truncate 3 100) fullVol).2
example : Modifies (.write 3 128 10 fun _ => 2) .write := ⟨rfl, fun h => by cases h⟩
example : fullVol2.mounted = true ∧ fullVol2.readOnly = false ∧ fullVol2.on .volfull = true := by decide +kernel
example : isErr .enospc (tryOnce fullConf (.write 3 128 10 fun _ => 2) fullVol2).1 = true := by decide +kernel
example : (exec fullConf (.write 3 128 10 fun _ => 2) fullVol2).1.toBool = true := by decide +kernel

/-! ### C42 -/

/-- **C42** A successful call whose event is enabled is committed when it returns. -/
theorem C42_event_commits (hc : c.SysOk) (h : Reach c v) (hm : v.mounted = true) (hk : k.Ok c) (hmod : Modifies k ev)
    (hon : v.on ev = true) {a : Reply} (he : exec c k v = (.ok a, v')) : committedFiles c v' = files c v' ∧ v'.almostFree = 0 ∧ v'.branched = false := by
  have hi := Reach.up hc h hm
  cases hro : v.readOnly
  · obtain ⟨r1, v1, e1, E1, F1, how⟩ := modify_how hc hi hro hk hmod he
    have : ∃ w, Cmtd c w v' := by
      rcases how with ⟨_, _, _, v2, v3, _, _, _, _, _, _, ⟨_, _, C⟩ | ⟨g, _⟩⟩ | ⟨_, _, ⟨_, _, C⟩ | ⟨g, _⟩⟩
      · exact ⟨_, C⟩
      · exact absurd ⟨rfl, hon⟩ g
      · exact ⟨_, C⟩
      · exact absurd ⟨rfl, hon⟩ g
    obtain ⟨w, C⟩ := this
    exact ⟨C.cfiles.trans C.files.symm, C.com.almost, C.com.branched⟩
  · obtain ⟨α, f, m, R, h1, _⟩ := exec_modify hc hk hmod
    have : exec c k v = (.error .erofs, v) := by rw [h1]; exact reply_run (whenRw_ro hm hro)
    rw [he] at this; cases (Prod.mk.inj this).1

/-- **C42** Unmounting commits if and only if its event is enabled (and the volume is not read-only). -/
theorem C42_unmount (hc : c.SysOk) (h : Reach c v) (hm : v.mounted = true) (he : exec c .unmount v = (r, v')) :
    r = .ok .unit ∧ v'.mounted = false ∧
    Found c v' (if v.readOnly = false ∧ v.on .umount = true then files c v else committedFiles c v) ∧
    (v.readOnly = true ∨ v.on .umount = false → v'.hist = v.hist) := by
  obtain ⟨r', v'', s', tr, e', d, a, new, hnew, _⟩ := exec_sim hc (Reach.sysOf hc h hm) (k := .unmount) trivial
  rw [he] at e'; obtain ⟨rfl, rfl⟩ := Prod.mk.inj e'
  simp only [Spec.Does] at d
  rw [if_neg (show ¬ (sysOf c v).mounted = false from fun h => by cases h)] at d
  obtain ⟨d1, d2, d3⟩ := d
  refine ⟨d1, ?_, ?_, ?_⟩
  · rw [← a.mounted_iff, d3]
  · refine Abs.found hc a (by rw [d3]) ?_
    rw [d3]
    show ((sysOf c v).commit tr).disk = _
    rw [d2]
    by_cases hx : v.readOnly = false ∧ v.on .umount = true
    · rw [if_pos hx, if_pos (show (sysOf c v).ro = false ∧ (sysOf c v).on .umount = true from hx)]; rfl
    · rw [if_neg hx, if_neg (show ¬ ((sysOf c v).ro = false ∧ (sysOf c v).on .umount = true) from hx)]; rfl
  · intro hno
    have hrun : exec c .unmount v = reply (fun _ => .unit) coreUnmount v := by
      show reply _ (apiUnmount c) v = _
      unfold reply apiUnmount; simp only [run_bind, run_get, hm, if_true]
    have : coreUnmount v = (.ok (), { v.discardAll with mounted := false }) := by
      unfold coreUnmount; simp only [run_bind, run_get]
      rw [if_neg]; · rfl
      intro hh
      rw [Bool.and_eq_true] at hh
      rcases hno with hno | hno
      · rw [hno] at hh; cases hh.1
      · have : v.transMask.testBit 0 = false := hno
        rw [this] at hh; cases hh.2
    rw [hrun, reply_run this] at he
    rw [← (Prod.mk.inj he).2]; rfl

/-- **C42** A call without an event commits nothing (except `red_transact`). -/
theorem C42_queries_never_commit (hc : c.SysOk) (h : Reach c v) (hm : v.mounted = true) (hk : k.Ok c) (hno : k.event = none) (ht : k ≠ .transact)
    (he : exec c k v = (r, v')) : v'.hist = v.hist ∧ committedFiles c v' = committedFiles c v := by
  obtain ⟨r', v'', s', tr, e', d, a, new, hnew, hrec⟩ := exec_sim hc (Reach.sysOf hc h hm) hk
  rw [he] at e'; obtain ⟨rfl, rfl⟩ := Prod.mk.inj e'
  have hcf : committedFiles c v' = committedFiles c v := by
    rcases C01_committed_state hc h hm hk (fun hh => by rw [hh] at hno; cases hno) he with h1 | ⟨h0, h2, h1 | h1⟩ | ⟨_, _, _, ev, h1, h2⟩
    · exact h1
    · exact absurd h1 ht
    · have htr : tr = [] := by
        by_contra hne
        obtain ⟨F, hF⟩ := List.exists_mem_of_ne_nil tr hne
        cases k <;> first | exact absurd rfl ht | (cases hno; done) | skip
        all_goals simp only [Spec.Does, Spec.Ask] at d
        all_goals first | exact hne d.2.1 | exact hne d.1
      have hl := d.last
      rw [htr] at hl
      have hl := List.mem_singleton.1 hl
      obtain ⟨_, _, h3, _⟩ := a.inv (d.mounted (fun hh => by rw [hh] at hno; cases hno) (Or.inl rfl))
      rw [h3] at hl; injection hl
    · rw [hno] at h1; cases h1
  refine ⟨?_, hcf⟩
  have hi := Reach.up hc h hm
  have q : ∀ {α : Type} {f : α → Reply} {m : VM α} {r0 : Except Err α} {w : Vol}, exec c k = reply f m → m v = (r0, w) → w.hist = v.hist → v'.hist = v.hist := by
    intro α f m r0 w h1 h2 h3
    rw [h1, reply_run h2] at he
    rw [← (Prod.mk.inj he).2]; exact h3
  have hn := hi
  cases k with
  | lookup p name =>
    rw [Sound.posix hk.1] at hn
    obtain ⟨r, e, _⟩ := coreLookup_spec hc.ok (hc.posixOk hk.1) hn p hk.2
    exact q rfl e rfl
  | dirRead p pos =>
    rw [Sound.posix hk] at hn
    obtain ⟨r, v1, e, E, _⟩ := coreDirRead_spec hc.ok (hc.posixOk hk) hn p pos
    exact q rfl e E.step.hist
  | dirParent p =>
    rw [Sound.posix hk] at hn
    rcases coreDirParent_spec hc.ok (hc.posixOk hk) hn p with ⟨e, _, q2⟩ | ⟨f, _, q2⟩
    · exact q rfl q2 rfl
    · exact q rfl q2 rfl
  | read ino start len =>
    obtain ⟨r, v1, e, E, _⟩ := coreFileRead_spec hc.ok hi ino start len
    exact q rfl e E.step.hist
  | stat ino =>
    rcases coreStat_spec hc.ok hi ino with ⟨q1, q2⟩ | ⟨f, st, q1, q2, _⟩
    · exact q rfl q2 rfl
    · exact q rfl q2 rfl
  | fileSize ino =>
    rcases mountFile hc.ok hi.wf ino false with ⟨e, h1, h2⟩ | ⟨f, ci, v1, hr, h2, fr, hd, hnb⟩
    · refine q (m := coreFileSizeGet c ino) rfl (r0 := .error e) (w := v) ?_ rfl
      unfold coreFileSizeGet; rw [whenMounted_run hm, run_bind, h2]
    · obtain ⟨rfl, _⟩ := hnb rfl
      refine q (m := coreFileSizeGet c ino) rfl (r0 := .ok ci.node.size) (w := v1) ?_ rfl
      unfold coreFileSizeGet; rw [whenMounted_run hm, run_bind, h2]; rfl
  | statfs =>
    refine q (m := coreVolStat c) (r0 := .ok ⟨c.blockCount, v.work.freeBlocks - c.reserved, c.inodeCount, v.work.freeInodes, v.readOnly⟩) rfl (w := v) ?_ rfl
    unfold coreVolStat; rw [whenMounted_run hm]; rfl
  | maskSet mask =>
    have : ((coreTransMaskSet c.transactMask mask) v).2.hist = v.hist := by
      unfold coreTransMaskSet; rw [run_bind]; dsimp only [run_get]
      split
      · rfl
      · split <;> rfl
    exact q rfl (Prod.mk.eta ..).symm this
  | maskGet =>
    refine q (m := coreTransMaskGet) (r0 := .ok v.transMask) rfl (w := v) ?_ rfl
    unfold coreTransMaskGet; rw [whenMounted_run hm]; rfl
  | rollback =>
    cases hro : v.readOnly
    · obtain ⟨v1, e, i', f1, f2, f3, f4, f5, _⟩ := hi.rollback hc.ok hro
      exact q (m := coreVolRollback c) rfl (show _ = (Except.ok (), v1) by unfold coreVolRollback; rw [whenRw_run hm hro]; exact e) f5
    · exact q (m := coreVolRollback c) rfl (whenRw_ro hm hro) rfl
  | mount ro =>
    refine q (m := apiMount c ro) (r0 := if c.posix then .error .ebusy else .ok ()) rfl (w := v) ?_ rfl
    unfold apiMount; simp only [run_bind, run_get, hm]
    cases c.posix <;> rfl
  | transact => exact absurd rfl ht
  | _ => cases hno

/-- **C42** Setting the events: exactly the masks with supported events only are accepted, and take effect. -/
theorem C42_mask_set (hm : v.mounted = true) (hro : v.readOnly = false) (mask : Nat) :
    (exec c (.maskSet mask) v = (.ok .unit, { v with transMask := mask }) ∧ ∀ i, mask.testBit i = true → c.transactMask.testBit i = true) ∨
    (exec c (.maskSet mask) v = (.error .einval, v) ∧ ∃ i, mask.testBit i = true ∧ c.transactMask.testBit i = false) := by
  by_cases hmask : mask &&& c.transactMask = mask
  · left
    constructor
    · refine reply_run (r := .ok ()) ?_
      unfold coreTransMaskSet; rw [run_bind]; dsimp only [run_get]
      rw [if_neg (by rw [hm]; simp [hmask]), if_neg (by rw [hro]; simp)]; rfl
    · intro i hi
      have := congrArg (fun x => Nat.testBit x i) hmask
      simp only [Nat.testBit_and, hi, Bool.true_and] at this
      exact this
  · right
    constructor
    · refine reply_run (r := .error .einval) ?_
      unfold coreTransMaskSet; simp only [run_bind, run_get, hm]; simp [hmask]
    · by_contra hno
      refine hmask (Nat.eq_of_testBit_eq fun i => ?_)
      rw [Nat.testBit_and]
      cases hi : mask.testBit i
      · rfl
      · cases ht : c.transactMask.testBit i
        · exact absurd ⟨i, hi, ht⟩ hno
        · rfl

/-- **C42** No call but `red_settransmask` changes the events. -/
theorem C42_mask_kept (hc : c.SysOk) (h : Reach c v) (hk : k.Ok c) (hno : ∀ m, k ≠ .maskSet m) (he : exec c k v = (r, v')) : v'.transMask = v.transMask := by
  obtain ⟨s, ha⟩ := h.abs hc
  obtain ⟨r', v'', s', tr, e', d, a, _⟩ := exec_sim hc ha hk
  rw [he] at e'; obtain ⟨rfl, rfl⟩ := Prod.mk.inj e'
  have hmk : ∀ {x : Vol} {y : Sys}, Abs c x y → y.mask = x.transMask := by
    intro x y h; cases h <;> assumption
  rw [← hmk ha, ← hmk a, d.mask hno]

/-- Both kinds of events occur on the demo volume: enabled and not enabled. -/
def demoVol3 : Vol := (exec demoConf (.maskSet 4) demoVol).2
example : demoVol3.mounted = true ∧ demoVol3.on .unlink = true ∧ demoVol3.on .write = false := by decide +kernel
example : (exec demoConf (.unlink 2 nmA) demoVol3).1.toBool = true := by decide +kernel
example : Modifies (.unlink 2 nmA) .unlink ∧ (Call.unlink 2 nmA).Ok demoConf := ⟨⟨rfl, fun h => by cases h⟩, by trivial⟩

/-! ### C25 -/

/-- **C25** On a volume that is read-only, every call that would modify it fails with EROFS, and nothing
happens.  (For every state whatever: the volume may have become read-only by a critical error.) -/
theorem C25_modifying_calls (hm : v.mounted = true) (hro : v.readOnly = true) (hk : (k.event ≠ none ∧ k ≠ .unmount) ∨ k = .transact ∨ k = .rollback) :
    exec c k v = (.error .erofs, v) := by
  have q : ∀ {α : Type} {f : α → Reply} {m : VM α}, exec c k = reply f (whenRw m) → exec c k v = (.error .erofs, v) := by
    intro α f m h
    rw [h, reply_run (whenRw_ro hm hro)]; rfl
  cases k <;> first | exact q rfl | (rcases hk with ⟨h1, h2⟩ | h | h <;> first | exact absurd rfl h1 | exact absurd rfl h2 | cases h)

/-- **C25** No call on it changes anything: neither the disk nor any buffer nor any variable. -/
theorem C25_no_call_writes (hc : c.SysOk) (h : Reach c v) (hm : v.mounted = true) (hro : v.readOnly = true) (hk : k.Ok c) (hu : k ≠ .unmount)
    (he : exec c k v = (r, v')) : v' = v := by
  have hi := Reach.up hc h hm
  have q : ∀ {α : Type} {f : α → Reply} {m : VM α} {r0 : Except Err α} {w : Vol}, exec c k = reply f m → m v = (r0, w) → w = v → v' = v := by
    intro α f m r0 w h1 h2 h3
    rw [h1, reply_run h2] at he
    rw [← (Prod.mk.inj he).2]; exact h3
  have hn := hi
  cases k with
  | lookup p name =>
    rw [Sound.posix hk.1] at hn
    obtain ⟨r, e, _⟩ := coreLookup_spec hc.ok (hc.posixOk hk.1) hn p hk.2
    exact q rfl e rfl
  | dirRead p pos =>
    rw [Sound.posix hk] at hn
    obtain ⟨r, v1, e, E, _, _, hsame⟩ := coreDirRead_spec hc.ok (hc.posixOk hk) hn p pos
    exact q rfl e (hsame (Or.inr hro))
  | dirParent p =>
    rw [Sound.posix hk] at hn
    rcases coreDirParent_spec hc.ok (hc.posixOk hk) hn p with ⟨e, _, q2⟩ | ⟨f, _, q2⟩
    · exact q rfl q2 rfl
    · exact q rfl q2 rfl
  | read ino start len =>
    obtain ⟨r, v1, e, E, _, _, hsame⟩ := coreFileRead_spec hc.ok hi ino start len
    exact q rfl e (hsame (Or.inr hro))
  | stat ino =>
    rcases coreStat_spec hc.ok hi ino with ⟨q1, q2⟩ | ⟨f, st, q1, q2, _⟩
    · exact q rfl q2 rfl
    · exact q rfl q2 rfl
  | fileSize ino =>
    rcases mountFile hc.ok hi.wf ino false with ⟨e, h1, h2⟩ | ⟨f, ci, v1, hr, h2, fr, hd, hnb⟩
    · refine q (m := coreFileSizeGet c ino) rfl (r0 := .error e) (w := v) ?_ rfl
      unfold coreFileSizeGet; rw [whenMounted_run hm, run_bind, h2]
    · obtain ⟨rfl, _⟩ := hnb rfl
      refine q (m := coreFileSizeGet c ino) rfl (r0 := .ok ci.node.size) (w := v1) ?_ rfl
      unfold coreFileSizeGet; rw [whenMounted_run hm, run_bind, h2]; rfl
  | statfs =>
    refine q (m := coreVolStat c) (r0 := .ok ⟨c.blockCount, v.work.freeBlocks - c.reserved, c.inodeCount, v.work.freeInodes, v.readOnly⟩) rfl (w := v) ?_ rfl
    unfold coreVolStat; rw [whenMounted_run hm]; rfl
  | maskSet mask =>
    have : ((coreTransMaskSet c.transactMask mask) v).2 = v := by
      unfold coreTransMaskSet; simp only [run_bind, run_get, hro, if_true]
      split <;> rfl
    exact q rfl (Prod.mk.eta ..).symm this
  | maskGet =>
    refine q (m := coreTransMaskGet) (r0 := .ok v.transMask) rfl (w := v) ?_ rfl
    unfold coreTransMaskGet; rw [whenMounted_run hm]; rfl
  | mount ro =>
    refine q (m := apiMount c ro) (r0 := if c.posix then .error .ebusy else .ok ()) rfl (w := v) ?_ rfl
    unfold apiMount; simp only [run_bind, run_get, hm]
    cases c.posix <;> rfl
  | unmount => exact absurd rfl hu
  | _ =>
    rw [C25_modifying_calls hm hro (by simp [Call.event])] at he
    exact (Prod.mk.inj he).2.symm

/-- **C25** Unmounting it writes nothing. -/
theorem C25_unmount_writes_nothing (hm : v.mounted = true) (hro : v.readOnly = true) (he : exec c .unmount v = (r, v')) :
    v'.hist = v.hist ∧ v'.base = v.base ∧ v'.dirty = v.dirty ∧ v'.onDisk = v.onDisk ∧ r = .ok .unit := by
  have hrun : exec c .unmount v = reply (fun _ => .unit) coreUnmount v := by
    show reply _ (apiUnmount c) v = _
    unfold reply apiUnmount; simp only [run_bind, run_get, hm, if_true]
  have : coreUnmount v = (.ok (), { v.discardAll with mounted := false }) := by
    unfold coreUnmount; simp only [run_bind, run_get, hro]; rfl
  rw [hrun, reply_run this] at he
  obtain ⟨rfl, rfl⟩ := Prod.mk.inj he
  refine ⟨rfl, rfl, rfl, ?_, rfl⟩
  funext b; rfl

/-- **C25** A session on a read-only volume: whatever calls are made, the volume is as it was. -/
theorem C25_session (hc : c.SysOk) {ks : List Call} (hok : ∀ k ∈ ks, k.Ok c ∧ k ≠ .unmount) (h : Reach c v) (hm : v.mounted = true) (hro : v.readOnly = true) :
    (runCalls c ks v).2 = v := by
  induction ks with
  | nil => rfl
  | cons k ks ih =>
    have hk := hok k (List.mem_cons_self ..)
    show (runCalls c ks (exec c k v).2).2 = v
    rw [C25_no_call_writes hc h hm hro hk.1 hk.2 (exec_eta c k v)]
    exact ih fun k' hk' => hok k' (List.mem_cons_of_mem _ hk')

/-- A volume mounted read-only. -/
def roVol : Vol := (exec demoConf (.mount true) (freshVol demoConf)).2
example : Reach demoConf roVol := (fresh_reach _).call (k := .mount true) trivial (exec_eta ..)
example : roVol.mounted = true ∧ roVol.readOnly = true := by decide +kernel

/-! ### C26 -/

/-- **C26** Every call on a volume that is not mounted fails with EINVAL and changes nothing (but
`mount`; and in an FSE build, `unmount` succeeds and does nothing). -/
theorem C26_not_mounted (hm : v.mounted = false) (hk : ∀ ro, k ≠ .mount ro) : exec c k v = (if k matches .unmount then (if c.posix then .error .einval else .ok .unit) else .error .einval, v) := by
  cases k with
  | mount ro => exact absurd rfl (hk ro)
  | unmount =>
    show reply _ (apiUnmount c) v = _
    unfold reply apiUnmount; simp only [run_bind, run_get, hm]
    cases c.posix <;> rfl
  | maskSet mask =>
    refine reply_run (r := .error .einval) ?_
    unfold coreTransMaskSet; simp only [run_bind, run_get, hm]; rfl
  | _ => first | exact reply_run (whenRw_off hm) | exact reply_run (whenMounted_off hm)

/-- A volume that is not mounted. -/
example : (freshVol demoConf).mounted = false ∧ Reach demoConf (freshVol demoConf) := ⟨by decide +kernel, fresh_reach _⟩

end RedFs.Props.Policy
