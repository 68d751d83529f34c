import Verif.Lemmas.IoRun
import Verif.Props.Entries
import Verif.Props.Fault
set_option linter.unusedSimpArgs false
set_option linter.unusedVariables false
/-!
Device errors at any point of any call (C59).
-/
namespace RedFs.Props.Io
open RedFs RedFs.Io RedFs.Props.Fault RedFs.Props.System RedFs.Props.Policy RedFs.Props.Account RedFs.Props.SpaceUse RedFs.Props.Entries
open M Vol Spec

variable {c : Conf} {v v' w u : Vol} {r : Except Err Reply} {k : Call} {d : Dev}

/-- **C59** On a device that works the calls do what all the other theorems say. -/
theorem C59_no_fault (hd : d.Works) (k : Call) (v : Vol) : execIo c d k v = exec c k v := exec_works hd k

/-- The call did not go as on a device that works. -/
theorem hit (hc : c.SysOk) (h : Reach c v) (hm : v.mounted = true) (hk : k.Ok c) (hr : Roomy c k v) (hd : d.Commits)
    (he : execIo c d k v = (r, v')) : (r, v') = exec c k v ∨ ∃ e, r = .error e ∧ Hits c k v e v' := by
  rcases exec_io hc (Reach.up hc h hm) hk (d := d) hr with g | ⟨e, v1, g, H⟩
  · left; rw [← he, g, hd.1, hd.2, execF_none]
  · right
    rw [he] at g; obtain ⟨rfl, rfl⟩ := Prod.mk.inj g
    exact ⟨e, rfl, H⟩

/-- **C59** Any operation of the device, or several of them, fail during a call.  Then either the call does what it does on a device that
works, or it returns an error - `EIO`, or the one which it returns on a device that works - and the volume is read-only. -/
theorem C59_fails (hc : c.SysOk) (h : Reach c v) (hm : v.mounted = true) (hk : k.Ok c) (hr : Roomy c k v) (hd : d.Commits)
    (he : execIo c d k v = (r, v')) :
    (r, v') = exec c k v ∨
    ∃ e, r = .error e ∧ (e = .eio ∨ (exec c k v).1 = .error e) ∧ v'.mounted = true ∧ v'.readOnly = true ∧ v'.transMask = v.transMask := by
  rcases hit hc h hm hk hr hd he with g | ⟨e, rfl, H⟩
  · exact Or.inl g
  · refine Or.inr ⟨e, rfl, H.err, ?_, ?_, H.mask⟩
    · rcases H.broken with ⟨b, _⟩ | ⟨_, _, _, b, _⟩ <;> exact b.mounted
    · rcases H.broken with ⟨b, _⟩ | ⟨_, _, _, b, _⟩ <;> exact b.ro

/-- **C59** Power fails during such a call, or after it: the next mount shows all files exactly as at the last transaction point (which may
be one that was made in the call, before its second attempt, since the volume was full). -/
theorem C59_power_loss (hc : c.SysOk) (h : Reach c v) (hm : v.mounted = true) (hk : k.Ok c) (hr : Roomy c k v) (hd : d.Commits)
    (he : execIo c d k v = (r, v')) (hf : (r, v') ≠ exec c k v) {new : List Epoch} (hn : v'.hist = new ++ v.hist)
    {e : Epoch} (hin : e ∈ v'.epoch :: new) {D : Nat → Blk} (hD : CrashImage c e D) (hw : Boot w D) :
    Found c w (committedFiles c v) ∨ (Found c w (files c v) ∧ v.on .volfull = true ∧ v.readOnly = false ∧ ∃ ev, k.event = some ev) := by
  rcases hit hc h hm hk hr hd he with g | ⟨er, rfl, H⟩
  · exact absurd g hf
  · rcases H.broken with ⟨b1, b2⟩ | ⟨b0, bro, bev, b1, new', b2, b3⟩
    · have hnn : new = [] := List.append_left_eq_self.1 (hn.symm.trans b2)
      subst hnn
      rw [List.mem_singleton.1 hin] at hD
      obtain ⟨s, g1, g2, g3⟩ := b1.recov hc.ok D hD w hw
      exact Or.inl (Abs.found hc g1 g2 (List.mem_singleton.1 g3))
    · have hnn : new = new' := by rw [b2] at hn; exact (List.append_cancel_right hn).symm
      subst hnn
      rcases List.mem_cons.1 hin with rfl | hin
      · obtain ⟨s, g1, g2, g3⟩ := b1.recov hc.ok D hD w hw
        exact Or.inr ⟨Abs.found hc g1 g2 (List.mem_singleton.1 g3), b0, bro, bev⟩
      · obtain ⟨s, g1, g2, g3⟩ := b3 e hin D hD w hw
        rcases List.mem_cons.1 g3 with g3 | g3
        · exact Or.inl (Abs.found hc g1 g2 g3)
        · exact Or.inr ⟨Abs.found hc g1 g2 (List.mem_singleton.1 g3), b0, bro, bev⟩

/-- **C59** From then on every call that would change something returns `EROFS`, and changes nothing. -/
theorem C59_read_only (hm : v.mounted = true) (hro : v.readOnly = true) (hk : Alters k) : execIo c d k v = (.error .erofs, v) := by
  have a : ∀ {α : Type} {f : α → Reply} {mI : IVM α}, execM c k = Io.reply f (Io.whenRw mI) → execIo c d k v = (.error .erofs, v) := by
    intro α f mI h1
    have g := reply_runI (f := f) (whenRw_roI (s := ⟨v, d, 0, false⟩) hm hro mI)
    rw [← h1] at g
    exact execIo_of g
  cases k with
  | create => exact a rfl
  | link => exact a rfl
  | unlink => exact a rfl
  | rename => exact a rfl
  | write => exact a rfl
  | truncate => exact a rfl
  | rollback => exact a rfl
  | transact =>
    show execF c d.full d.event .transact v = _
    exact reply_run (r := .error .erofs) (whenRw_ro hm hro)
  | _ => exact hk.elim

/-- **C59** Queries change nothing on a volume that is read-only, whatever the device does; they return `EIO` or what they return on
a device that works. -/
theorem C59_quiet (hro : v.readOnly = true) (hk : Inquires k) : ∃ r, execIo c d k v = (r, v) ∧ (r = .error .eio ∨ exec c k v = (r, v)) := by
  have b : Looks k → ∃ r, execIo c d k v = (r, v) ∧ (r = .error .eio ∨ exec c k v = (r, v)) := by
    intro hl
    obtain ⟨r, g, hg⟩ := look_ro (c := c) (d := d) hl hro
    refine ⟨r, g, hg.imp_right fun hg => ?_⟩
    obtain ⟨r', e, _⟩ := rd_exec (c := c) hl v v ⟨fun _ => Or.inl rfl, rfl, fun _ => rfl, rfl, hro, hro⟩
    rw [e] at hg ⊢; rw [hg]
  cases k with
  | statfs =>
    have : (exec c .statfs v).2 = v := by
      show (RedFs.reply _ (coreVolStat c) v).2 = v
      unfold RedFs.reply coreVolStat RedFs.whenMounted
      simp only [run_bind, run_get]
      cases v.mounted <;> rfl
    exact ⟨(exec c .statfs v).1, Prod.ext rfl this, Or.inr (Prod.ext rfl this)⟩
  | lookup => exact b trivial
  | dirRead => exact b trivial
  | dirParent => exact b trivial
  | read => exact b trivial
  | stat => exact b trivial
  | fileSize => exact b trivial
  | _ => exact hk.elim

/-- **C59** Unmounting the volume succeeds, also if the device still does not work, and mounting it then (on a device that works again)
shows all files as at the last transaction point. -/
theorem C59_remount (hc : c.SysOk) (h : Reach c v) (hm : v.mounted = true) (hk : k.Ok c) (hr : Roomy c k v) (hd : d.Commits)
    (he : execIo c d k v = (r, v')) (hf : (r, v') ≠ exec c k v) (d' : Dev) :
    ∃ u, execIo c d' .unmount v' = (.ok .unit, u) ∧ u.mounted = false ∧
      (Found c u (committedFiles c v) ∨ (Found c u (files c v) ∧ v.on .volfull = true ∧ v.readOnly = false ∧ ∃ ev, k.event = some ev)) := by
  rcases hit hc h hm hk hr hd he with g | ⟨er, rfl, H⟩
  · exact absurd g hf
  · have key : ∀ {F : RedFs.Files}, Broken c v' F → ∃ u, execIo c d' .unmount v' = (.ok .unit, u) ∧ u.mounted = false ∧ Found c u F := by
      intro F hB
      obtain ⟨r1, v1, s1, tr1, q1, q2, q3, _⟩ := RedFs.Io.refines hc (d := d') (k := .unmount)
        (AbsIo.broken (s := ⟨true, true, v'.transMask, F, some F⟩) rfl rfl rfl rfl hB) trivial trivial (fun L h => by cases h)
      cases q2 with
      | refuses _ h => exact h.elim
      | answers h => exact h.elim
      | handles h => exact h.elim
      | unmounts _ =>
        cases q3 with
        | fine a => exact ⟨v1, q1, (a.mounted_iff).symm, Abs.found hc a rfl rfl⟩
    rcases H.broken with ⟨b1, b2⟩ | ⟨b0, bro, bev, b1, new', b2, b3⟩
    · obtain ⟨u, h1, h2, h3⟩ := key b1
      exact ⟨u, h1, h2, Or.inl h3⟩
    · obtain ⟨u, h1, h2, h3⟩ := key b1
      exact ⟨u, h1, h2, Or.inr ⟨h3, b0, bro, bev⟩⟩

/-- **C59** Every history - any sequence of calls, during which any operations of the device fail, of power losses at any moment, formats
and restarts - is one that the specification allows. -/
theorem C59_every_history (hc : c.SysOk) {v0 : Vol} {t : List Ev} {f : Bool} (hb : Blank c v0) (h : RunIo c v0 t v f) :
    ∃ s, SRunIo c ⟨⟨false, false, v0.transMask, fun _ => none, none⟩, .fine⟩ t s := by
  obtain ⟨s, h1, _⟩ := h.refines hc hb.abs
  exact ⟨s, h1⟩

/-- **C59** After any such history, a power loss leaves what the specification says. -/
theorem C59_history_power_loss (hc : c.SysOk) {v0 : Vol} {t : List Ev} {f : Bool} (hb : Blank c v0) (h : RunIo c v0 t v f) :
    ∃ s, SRunIo c ⟨⟨false, false, v0.transMask, fun _ => none, none⟩, .fine⟩ t s ∧
      ∀ D w, CrashImage c v.epoch D → Boot w D → none ∈ s.cands ∨ ∃ F, some F ∈ s.cands ∧ Found c w F := by
  obtain ⟨s, h1, h2, _⟩ := h.refines hc hb.abs
  refine ⟨s, h1, fun D w hD hw => ?_⟩
  obtain ⟨s1, g1, g2, g3⟩ := h2.idle hc.ok D hD w hw
  cases hs : s1.disk with
  | none => rw [hs] at g3; exact Or.inl g3
  | some F => rw [hs] at g3; exact Or.inr ⟨F, g3, Abs.found hc g1 g2 hs⟩

/-- **C59** The condition `Roomy` is met whenever volume-full transactions are disabled, or `statvfs` reports six free blocks and the directory has
fewer than the maximum number of entries; and by all calls other than those which create a file or directory. -/
theorem C59_roomy (hc : c.SysOk) (h : Reach c v) (hm : v.mounted = true) (hk : k.Ok c) {st : StatFs} (hs : exec c .statfs v = (.ok (.statfs st), w))
    (hx : (∀ p name isDir, k ≠ .create p name isDir) ∨ v.on .volfull = false ∨ (6 ≤ st.bfree ∧ ∀ p, Adds k p 6 → ¬ Full c (files c v) p)) : Roomy c k v := by
  cases k with
  | create p name isDir =>
    intro _ hro hon he
    rcases hx with hx | hx | ⟨h1, h2⟩
    · exact hx p name isDir rfl
    · rw [hx] at hon; cases hon
    · have hi := Reach.up hc h hm
      have e : tryOnce c (.create p name isDir) v = (.error .enospc, (coreCreateSub c p name isDir v).2) :=
        reply_run (f := .num) (m := coreCreateSub c p name isDir) (v := v) (r := .error .enospc) (Prod.ext he rfl)
      rcases (try_space hc hi hro hk (p := p) (n := 6) ⟨rfl, rfl⟩ e).1 with g | g
      · exact h2 p ⟨rfl, rfl⟩ g
      · rw [← bfree_eq hc hi hs] at g; omega
  | _ => trivial

/-! ### an example -/

/-- The device fails in its `n`-th operation. -/
def failAt (n : Nat) : Dev := ⟨fun k => k == n, fun _ _ => .data fun _ => 0, fun _ _ => blankMr demoConf 0, none, none⟩

/-- The third operation of the device in a write of 300 bytes to a file of the demo volume fails. -/
def hitCall : Call := .write 4 600 300 fun _ => 1
def hitVol : Vol := (execIo demoConf (failAt 3) hitCall demoVol).2
theorem hit_eio : isEio (execIo demoConf (failAt 3) hitCall demoVol).1 = true := by decide +kernel
theorem hit_ok : isEio (exec demoConf hitCall demoVol).1 = false := by decide +kernel
theorem hit_hist : hitVol.hist.length = demoVol.hist.length := by decide +kernel
theorem hit_state : hitVol.mounted = true ∧ hitVol.readOnly = true := by decide +kernel

example : demoConf.SysOk ∧ Reach demoConf demoVol ∧ demoVol.mounted = true ∧ hitCall.Ok demoConf ∧ Roomy demoConf hitCall demoVol ∧ (failAt 3).Commits ∧
    ((execIo demoConf (failAt 3) hitCall demoVol).1, hitVol) ≠ exec demoConf hitCall demoVol :=
  ⟨demo_sys, demo_reach, demo_mounted, trivial, trivial, ⟨rfl, rfl⟩, eio_ne hit_eio hit_ok⟩
/-- Then changes are refused and queries change nothing. -/
example : hitVol.mounted = true ∧ hitVol.readOnly = true ∧ Alters (.unlink 2 nmA) ∧ Inquires (.read 4 0 300) :=
  ⟨hit_state.1, hit_state.2, trivial, trivial⟩
/-- The queries can fail, or not. -/
theorem hit_read : isEio (execIo demoConf (failAt 1) (.read 4 0 300) hitVol).1 = true ∧ isEio (execIo demoConf (failAt 99) (.read 4 0 300) hitVol).1 = false := by decide +kernel
/-- A device that works. -/
example : (⟨fun _ => false, fun _ _ => .data fun _ => 0, fun _ _ => blankMr demoConf 0, none, none⟩ : Dev).Works := ⟨fun _ => rfl, rfl, rfl⟩

/-- Calls on a device of which each can fail in its own way.  `calm`: volume-full transactions are not enabled. -/
def runIo (c : Conf) : List (Dev × Call) → Vol → List Ev × Vol
  | [], v => ([], v)
  | (d, k) :: ks, v => let x := execIo c d k v; let y := runIo c ks x.2; (.call k x.1 :: y.1, y.2)
def calm (c : Conf) : List (Dev × Call) → Vol → Bool
  | [], _ => true
  | (d, k) :: ks, v => !v.on .volfull && calm c ks (execIo c d k v).2

theorem runIo_run {v0 : Vol} {ks : List (Dev × Call)} (hk : ∀ x ∈ ks, x.1.Commits ∧ x.2.Ok c) :
    ∀ {t : List Ev} {v : Vol}, RunIo c v0 t v false → calm c ks v = true → RunIo c v0 (t ++ (runIo c ks v).1) (runIo c ks v).2 false := by
  induction ks with
  | nil => intro t v h _; show RunIo c v0 (t ++ []) v false; rw [List.append_nil]; exact h
  | cons x ks ih =>
    obtain ⟨d, k⟩ := x
    intro t v h hc
    obtain ⟨h1, h2⟩ := Bool.and_eq_true_iff.1 hc
    have hv : v.on .volfull = false := by simpa using h1
    have hr : Roomy c k v := by
      cases k with
      | create => intro _ _ hon; rw [hv] at hon; cases hon
      | _ => trivial
    have g := ih (fun y hy => hk y (List.mem_cons_of_mem _ hy)) (.call h (hk _ (List.mem_cons_self ..)).2 hr (fun hf => by cases hf) (hk _ (List.mem_cons_self ..)).1 rfl) h2
    rw [List.append_assoc] at g
    exact g

/-- A history: the volume is formatted; after some calls the device fails in a write and in a read; the volume is unmounted; the device fails
while it is being mounted; it is mounted, and written to. -/
def hitCalls : List (Dev × Call) := demoCalls.map (fun k => (failAt 999, k)) ++
  [(failAt 3, hitCall), (failAt 1, .read 4 0 300), (failAt 0, .unmount), (failAt 1, .mount false), (failAt 999, .mount false), (failAt 999, hitCall)]
theorem hit_run : RunIo demoConf (bareVol demoConf) (([] ++ [Ev.format (volFormat demoConf (bareVol demoConf)).1]) ++ (runIo demoConf hitCalls (freshVol demoConf)).1)
    (runIo demoConf hitCalls (freshVol demoConf)).2 false := by
  refine runIo_run ?_ (.format (v' := (volFormat demoConf (bareVol demoConf)).2) .nil (Or.inl rfl) rfl) (by decide +kernel)
  intro x hx
  have hx : x.1.Commits ∧ x.2 ∈ demoCalls ++ [hitCall, .read 4 0 300, .unmount, .mount false, .mount false, hitCall] := by
    rcases List.mem_append.1 hx with h | h
    · obtain ⟨k, h1, rfl⟩ := List.mem_map.1 h
      exact ⟨⟨rfl, rfl⟩, List.mem_append_left _ h1⟩
    · simp only [List.mem_cons, List.mem_nil_iff, or_false] at h
      rcases h with rfl | rfl | rfl | rfl | rfl | rfl <;> exact ⟨⟨rfl, rfl⟩, List.mem_append_right _ (by simp)⟩
  refine ⟨hx.1, ?_⟩
  rcases List.mem_append.1 hx.2 with h | h
  · exact demo_calls_ok _ h
  · simp only [List.mem_cons, List.mem_nil_iff, or_false] at h
    rcases h with h | h | h | h | h | h <;> rw [h] <;> trivial
/-- What the last six calls return. -/
theorem hit_replies : ((runIo demoConf hitCalls (freshVol demoConf)).1.drop 7).map (fun | .call _ (.error e) => some e | _ => none) =
    [some .eio, some .eio, none, some .eio, none, none] := by decide +kernel

/-! ### a device failure while a file cannot be created since the volume is full (DESIGN.md, finding 28) -/

/-- A volume of 780 blocks, 7 of which can be allocated, with an imap of its own. -/
def orphanConf : Conf := { demoConf with inodeCount := 384, blockCount := 780 }
theorem orphan_sys : orphanConf.SysOk :=
  ⟨⟨⟨7, by decide, by decide, rfl⟩, by decide, by decide, by decide, by decide, by decide, by decide⟩, fun _ => ⟨rfl, by decide, by decide, by decide⟩⟩
/-- The volume is full.  The file has been made shorter, but its blocks become free only in the next commit. -/
def orphanCalls : List Call := fullCalls ++ [.truncate 3 100]
def orphanVol : Vol := (runCalls orphanConf orphanCalls (freshVol orphanConf)).2
theorem orphan_reach : Reach orphanConf orphanVol := by
  refine (fresh_reach _).calls ?_
  intro k hk
  simp only [orphanCalls, fullCalls, List.mem_append, List.mem_cons, List.mem_nil_iff, or_false] at hk
  rcases hk with (rfl | rfl | rfl | rfl | rfl) | rfl <;> trivial
def badVol : Vol := (execIo orphanConf (failAt 20) (.create 2 nmB false) orphanVol).2
/-- It is unmounted and mounted again. -/
def nextVol : Vol := (runCalls orphanConf [.unmount, .mount false] badVol).2
/-- How many inodes are free, according to `statvfs`. -/
def ffreeOn (c : Conf) (v : Vol) : Option Nat := match (exec c .statfs v).1 with | .ok (.statfs st) => some st.ffree | _ => none

/-- **C59** The condition `Roomy` is needed.  On a full volume with volume-full transactions a device error during the creation of a file does
not yield `EIO` but `EROFS`; there is a commit, though the volume is read-only by then; and that commit has one free inode less for good, though
no file has been created. -/
theorem C59_orphan : Reach orphanConf orphanVol ∧ (failAt 20).Commits ∧ (Call.create 2 nmB false).Ok orphanConf ∧
    isErr .erofs (execIo orphanConf (failAt 20) (.create 2 nmB false) orphanVol).1 = true ∧ commits badVol = commits orphanVol + 1 ∧
    ffreeOn orphanConf orphanVol = some 382 ∧ ffreeOn orphanConf nextVol = some 381 ∧
    isErr .enoent (exec orphanConf (.lookup 2 nmB) nextVol).1 = true ∧ isErr .eio (exec orphanConf (.stat 4) nextVol).1 = true :=
  have h : isErr .erofs (execIo orphanConf (failAt 20) (.create 2 nmB false) orphanVol).1 = true ∧ commits badVol = commits orphanVol + 1 ∧
    ffreeOn orphanConf orphanVol = some 382 ∧ ffreeOn orphanConf nextVol = some 381 ∧
    isErr .enoent (exec orphanConf (.lookup 2 nmB) nextVol).1 = true ∧ isErr .eio (exec orphanConf (.stat 4) nextVol).1 = true := by decide +kernel
  ⟨orphan_reach, ⟨rfl, rfl⟩, (by trivial), h⟩

end RedFs.Props.Io
