import Verif.Lemmas.ImageOf
import Verif.Props.System
/-!
C58: the bytes on the device determine the files.

`Image.root`, `Image.inode`, `Image.file` (Verif/Spec/Image.lean) are a reader that knows the format of the disk and nothing else: not the state of the driver, not even the
byte order of the computer that has written the disk.
-/
namespace RedFs.Props.Image
open RedFs RedFs.Props.System
open RedFs.Image Swap
variable {c : Conf} {v w : Vol} {ss : Nat} {b b' : Build} {D : Nat → Blk} {m : Metaroot} {img : Nat → Buffer.Bytes}

/-- Metaroots are numbered with 64 bits. -/
def SeqOk (D : Nat → Blk) : Prop := ∀ x m, x = 1 ∨ x = 2 → D x = .metaroot m → m.seq < 2 ^ 64

theorem sound_ns {F : RedFs.Files} (h : Sound c F) (hp : c.posix = true) : NsOk c F := by
  rw [Sound.posix hp] at h; exact h

theorem off_reads (hc : c.Ok) (h1 : 128 ≤ ss) (h2 : ss ≤ c.blockSize) (ho : b.order = b'.order) {k : Bool} (hs : mrSelect c (D 1) (D 2) = some (k, m))
    (hmr : MrOk c D m) (hg : Good c (Sound c) D m) (hq : SeqOk D) (hi : IsImage (layout c ss) b c D m img) :
    ∃ m', root c (layout c ss) b' img = some (k, m') ∧ Setting c ss b b' D m m' img ∧ ∀ i, SameOpt c (file c (layout c ss) b' img m' i) (stFiles c D m i) := by
  have hl := layout_ok hc h1 h2
  obtain ⟨m', e, r, s⟩ := Image.root_eq hl ho hi hq hs
  have S : Setting c ss b b' D m m' img := ⟨hc, hl, ho, hmr, hg.fs, hi, r, s⟩
  exact ⟨m', e, S, S.file (fun hp => sound_ns hg.ns hp)⟩

/-- **C58** A volume that is not mounted - after an unmount or after a power loss at any time - and that would show the files `F` when mounted: from the bytes on its device anyone who
knows the format gets the files `F`, and the numbers of free blocks and inodes the driver would report. -/
theorem C58_files (hc : c.SysOk) (h : Reach c w) (hm : w.mounted = false) {F : RedFs.Files} (hF : Found c w F)
    -- the sector size; both computers agree on the byte order of the device
    (h1 : 128 ≤ ss) (h2 : ss ≤ c.blockSize) (ho : b.order = b'.order) (hq : SeqOk w.base)
    {k : Bool} (hs : mrSelect c (w.base 1) (w.base 2) = some (k, m)) (hi : IsImage (layout c ss) b c w.base m img) :
    ∃ m', root c (layout c ss) b' img = some (k, m') ∧ (∀ i, SameOpt c (file c (layout c ss) b' img m' i) (F i)) ∧
      ∀ ro w', volMount c ro w = (.ok (), w') → m'.freeBlocks = w'.work.freeBlocks ∧ (c.posix = true → m'.freeInodes = w'.work.freeInodes) := by
  obtain ⟨s, ha⟩ := h.abs hc
  cases ha with
  | up e i =>
    rw [i.mounted] at hm; cases hm
  | none e hb =>
    obtain ⟨_, e1, _⟩ := apiMount_blank (ro := false) hb
    obtain ⟨_, e2, _⟩ := hF false
    rw [e1] at e2; injection e2 with e2; cases e2
  | off e hoff hd =>
    rename_i m0 _
    obtain ⟨k0, hdisk⟩ := hoff.disk
    obtain ⟨hk, hm0⟩ := Prod.mk.inj (Option.some.inj (hdisk.sel.symm.trans hs))
    subst hk; subst hm0
    obtain ⟨m', r1, S, r3⟩ := off_reads hc.ok h1 h2 ho hs hdisk.mrOk hoff.good hq hi
    have hFe : F = stFiles c w.base m0 := by
      obtain ⟨w1, e1, _, f1, _⟩ := hoff.mount hc.ok false
      obtain ⟨w2, e2, _, _, f2, _⟩ := hF false
      obtain ⟨_, rfl⟩ := Prod.mk.inj (e1.symm.trans e2)
      exact f2.symm.trans f1
    refine ⟨m', r1, fun i => hFe ▸ r3 i, fun ro w' e => ?_⟩
    obtain ⟨w1, e1, _, _, _, _, hwk, _⟩ := hoff.mount hc.ok ro
    obtain ⟨_, rfl⟩ := Prod.mk.inj (e1.symm.trans e)
    have hb := hc.ok.blocks_max
    have hfit := hc.ok.fits
    rw [hwk]
    refine ⟨?_, fun hp => ?_⟩
    · rw [S.root.freeBlocks, Nat.mod_eq_of_lt]
      rw [hdisk.mrOk.free]
      have := countIn_le (fun b => !imapBit c w.base m0 b) c.firstAlloc c.blockCount
      omega
    · rw [S.root.freeInodes hp, Nat.mod_eq_of_lt]
      rw [hoff.good.fs.free]
      have := countIn_le (fun i => !liveIn c (imapBit c w.base m0) i) 2 (2 + c.inodeCount)
      unfold Conf.firstAlloc at *
      omega

/-- **C58** While the volume is mounted: whatever the device has done of the writes since the last transaction, anyone who knows the format gets the committed files from its bytes. -/
theorem C58_committed (hc : c.SysOk) (h : Reach c v) (hm : v.mounted = true) (hD : CrashImage c v.epoch D)
    (h1 : 128 ≤ ss) (h2 : ss ≤ c.blockSize) (ho : b.order = b'.order) (hq : SeqOk D)
    {k : Bool} (hs : mrSelect c (D 1) (D 2) = some (k, m)) (hi : IsImage (layout c ss) b c D m img) :
    ∃ m', root c (layout c ss) b' img = some (k, m') ∧ ∀ i, SameOpt c (file c (layout c ss) b' img m' i) (committedFiles c v i) := by
  have hB := boot_boot c D
  have hbase : (bootVol c D).base = D := hB.conn.2.1
  have hr : Reach c (bootVol c D) := by
    obtain ⟨v0, t, h0, h⟩ := h
    exact ⟨v0, _, h0, h.idleCrash hD hB⟩
  obtain ⟨m', r1, r2, _⟩ := C58_files hc hr hB.mounted (C01_power_loss_idle hc h hm hD hB) h1 h2 ho (by rw [hbase]; exact hq) (by rw [hbase]; exact hs) (by rw [hbase]; exact hi)
  exact ⟨m', r1, r2⟩

/-- **C58** The blocks from which files are read are blocks to which file data was written: a read never shows a user the contents of a node. -/
theorem C58_data (hc : c.SysOk) (h : Reach c v) (hm : v.mounted = true) {i p : _} (hp : PosOk c p) (h0 : p.lvl c = 0) (ht : treeOf c v.blk (curBit c v) i p ≠ 0) :
    ∃ d, v.blk (treeOf c v.blk (curBit c v) i p) = .data d := by
  have hk := ((Reach.up hc h hm).wf.fs.kind i p hp ht).2 h0
  cases hd : v.blk (treeOf c v.blk (curBit c v) i p) <;> rw [hd] at hk <;> first | exact ⟨_, rfl⟩ | cases hk

/-! ### an example -/

def seqB : Blk → Bool
  | .metaroot m => decide (m.seq < 2 ^ 64)
  | _ => false

theorem seqB_spec {x : Blk} (h : seqB x = true) : ∃ m, x = .metaroot m ∧ m.seq < 2 ^ 64 := by
  cases x <;> first | exact ⟨_, rfl, of_decide_eq_true h⟩ | cases h

theorem seqB_ok {D : Nat → Blk} (h1 : seqB (D 1) = true) (h2 : seqB (D 2) = true) : SeqOk D := by
  intro x m hx e
  have : seqB (D x) = true := by rcases hx with rfl | rfl <;> assumption
  rw [e] at this; exact of_decide_eq_true this

theorem demo_roots : seqB (demoVol.epoch.base 1) = true ∧ seqB (demoVol.epoch.base 2) = true := by decide +kernel

/-- A mounted volume with two valid metaroots has an image. -/
theorem meets (hc : c.SysOk) (h : Reach c v) (hm : v.mounted = true) (h1 : seqB (v.epoch.base 1) = true) (h2 : seqB (v.epoch.base 2) = true) (b : Build)
    (hs : 128 ≤ ss) (hs' : ss ≤ c.blockSize) :
    ∃ k m img, CrashImage c v.epoch v.epoch.base ∧ SeqOk v.epoch.base ∧ mrSelect c (v.epoch.base 1) (v.epoch.base 2) = some (k, m) ∧
      IsImage (layout c ss) b c v.epoch.base m img := by
  have hi := Reach.up hc h hm
  have hroots : ∀ x, x = 1 ∨ x = 2 → ∃ m, v.epoch.base x = .metaroot m := by
    intro x hx
    rcases hx with rfl | rfl
    · obtain ⟨m, e, _⟩ := seqB_spec h1; exact ⟨m, e⟩
    · obtain ⟨m, e, _⟩ := seqB_spec h2; exact ⟨m, e⟩
  obtain ⟨img, h⟩ := image_exists (l := layout c ss) (b := b) (layout_ok hc.ok hs hs') rfl c v.comm hroots
  exact ⟨_, _, img, .old _ _, seqB_ok h1 h2, hi.wf.vol.sel hm, h⟩

/-- The demo volume; the disk was written by a little-endian computer and is read by a big-endian one that swaps bytes. -/
example : (∃ k m img, CrashImage demoConf demoVol.epoch demoVol.epoch.base ∧ SeqOk demoVol.epoch.base ∧
      mrSelect demoConf (demoVol.epoch.base 1) (demoVol.epoch.base 2) = some (k, m) ∧ IsImage (layout demoConf 128) ⟨false, false⟩ demoConf demoVol.epoch.base m img) ∧
    Build.order ⟨false, false⟩ = Build.order ⟨true, true⟩ :=
  ⟨meets demo_sys demo_reach demo_mounted demo_roots.1 demo_roots.2 _ (by decide) (by decide), rfl⟩

/-- After a power loss. -/
theorem meets_off (hc : c.SysOk) (h : Reach c v) (hm : v.mounted = true) :
    Reach c (bootVol c v.epoch.base) ∧ (bootVol c v.epoch.base).mounted = false ∧ (bootVol c v.epoch.base).base = v.epoch.base ∧ Found c (bootVol c v.epoch.base) (committedFiles c v) :=
  ⟨by obtain ⟨v0, t, h0, h⟩ := h
      exact ⟨v0, _, h0, h.idleCrash (.old _ _) (boot_boot _ _)⟩, rfl, rfl, C01_power_loss_idle hc h hm (.old _ _) (boot_boot _ _)⟩

example : Found demoConf (bootVol demoConf demoVol.epoch.base) (committedFiles demoConf demoVol) := (meets_off demo_sys demo_reach demo_mounted).2.2.2

/-- A file with data. -/
example : PosOk demoConf (.ent 1) ∧ Pos.lvl demoConf (.ent 1) = 0 ∧ treeOf demoConf demoVol.blk (curBit demoConf demoVol) 4 (.ent 1) ≠ 0 :=
  ⟨by show 1 < _; decide, by decide, by decide +kernel⟩
end RedFs.Props.Image
