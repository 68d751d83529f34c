import Verif.Lemmas.PosixDet
import Verif.Props.PosixFd
set_option linter.unusedSimpArgs false
set_option linter.unusedVariables false
set_option linter.unusedSectionVars false
/-!
C30: what is open, or is a current working directory, is not removed.
-/
namespace RedFs.Props.PosixUse
open RedFs.Posix M Str Path Spec

variable {pc : PConf} {s s' s1 : PSt} {t : Nat} {k : PCall} {r : Except Err PReply} {fd : Int} {j : Nat}

/-- Nothing has changed: neither a handle, nor what is seen of any volume. -/
def Unchanged (pc : PConf) (s s' : PSt) : Prop :=
  s'.handle = s.handle ∧ ∀ i, i < pc.n → (s'.vols i).mounted = (s.vols i).mounted ∧ ((s.vols i).mounted = true → s'.files pc i = s.files pc i)

theorem unchanged_of (a1 : Alike s s1) {s2 : PSt} (q : Posix.Quiet pc s1 s2) (a2 : Alike s2 s') : Unchanged pc s s' := by
  refine ⟨by rw [a2.handle, q.handle, a1.handle], fun i hi => ?_⟩
  have := q.vols i hi
  unfold PSt.files
  rw [a2.vols]
  rw [a1.vols] at this
  exact ⟨this.mounted, this.files⟩

theorem unchanged_onVol (a1 : Alike s s1) {s2 : PSt} {vol : Nat} (hh : s2.handle = s1.handle) (q : OnVol pc vol s1 s2 (fun F F' => F' = F)) (a2 : Alike s2 s') : Unchanged pc s s' := by
  refine ⟨by rw [a2.handle, hh, a1.handle], fun i hi => ?_⟩
  unfold PSt.files
  rw [a2.vols, ← a1.vols]
  by_cases e : i = vol
  · subst e; exact ⟨q.up'.trans q.up.symm, fun _ => q.rel⟩
  · exact ⟨(q.others i hi e).mounted, (q.others i hi e).files⟩

/-- A name that exists is found. -/
theorem lookup_has {c : Conf} {v : Vol} (hc : c.SysOk) (hp : c.posix = true) (h : Reach c v) (hm : v.mounted = true) {p i : Nat} {nm : List Byte} {e : Err}
    (hh : Has c (RedFs.files c v) p nm i) : ¬ Lookup c p nm (RedFs.files c v) (.error e) := by
  have ok := has_nameOk hc hp h hm hh
  have h1 := ok.pos; have h2 := ok.max
  rintro (hn | ⟨_, (⟨hl, _⟩ | ⟨hl, _⟩) | ⟨_, _, _, hx⟩⟩)
  · exact Names.not_notDir (has_dir hc hp hh).choose_spec hn
  · omega
  · omega
  · exact hx _ hh

theorem Alike.inUse (a : Alike s s1) {vol i : Nat} : InUse pc s1 vol i ↔ InUse pc s vol i := by
  unfold InUse; rw [a.handle]; simp only [a.cwdVol, a.cwdIno]

theorem Alike.held (a : Alike s s1) {vol i : Nat} : Held pc s1 vol i ↔ Held pc s vol i := by
  unfold Held PSt.files; rw [Alike.inUse a, a.vols]

theorem Alike.volInUse (a : Alike s s1) {i : Nat} : VolInUse pc s1 i ↔ VolInUse pc s i := by
  unfold VolInUse; rw [a.handle]

section
variable (hc : pc.Ok) (h : PReach pc s)
include hc h

/-- **C30** The file of an open descriptor exists, on a mounted volume; it is a directory if and only if it was one when it was opened; it can be reached from the root. -/
theorem C30_open_exists (ho : Open pc s fd j) :
    (s.handle j).vol < pc.n ∧ (s.vols (s.handle j).vol).mounted = true ∧
    (∃ f, s.files pc (s.handle j).vol (s.handle j).ino = some f ∧ ((s.handle j).dir = true ↔ f.mode = modeDir)) ∧
    ((s.handle j).ino = 2 ∨ ∃ p nm, Has (pc.conf (s.handle j).vol) (s.files pc (s.handle j).vol) p nm (s.handle j).ino) := by
  have H := PosixFd.open_handle hc h ho
  refine ⟨H.vol, H.mounted, H.file, ?_⟩
  by_cases e : (s.handle j).ino = 2
  · exact Or.inl e
  · obtain ⟨f, hf, _⟩ := H.file
    exact Or.inr (Names.has_name (hc.sys _ H.vol) (hc.posix _ H.vol) ((h.inv hc).reach _ H.vol) H.mounted hf e)

/-- **C30** The current working directory of every task is a directory that exists, if its volume is mounted, and is the root otherwise. -/
theorem C30_cwd_exists (hin : s.inited = true) (hw : pc.cwd = true) (hj : j < pc.tasks) :
    (s.slot j).cwdVol < pc.n ∧ if (s.vols (s.slot j).cwdVol).mounted = true then ∃ f, IsDir (s.files pc (s.slot j).cwdVol) (s.slot j).cwdIno f else (s.slot j).cwdIno = 2 := by
  have H := (h.inv hc).slot hin hw j hj
  refine ⟨H.vol, ?_⟩
  split
  · next e => exact H.mounted e
  · next e => exact H.off (by simpa using e)

/-- A call does not change which file an open descriptor is for. -/
theorem same_file (hp : Permitted pc t k s) (he : pexec pc t k s = (r, s')) (ho : Open pc s fd j) (ho' : Open pc s' fd j) :
    (s'.handle j).ino = (s.handle j).ino ∧ (s'.handle j).vol = (s.handle j).vol ∧ (s'.handle j).dir = (s.handle j).dir := by
  rcases step_cases hc (h.inv hc) hp he with ⟨_, hz, i, _⟩ | ⟨a, _⟩ | ⟨hin, s1, s2, R, hi1, a1, d, a2⟩
  · rw [ho.1] at hz; cases hz
  · rw [a.handle]; exact ⟨rfl, rfl, rfl⟩
  · rw [a2.handle, ← a1.handle]
    rw [← a1.open_ (pc := pc)] at ho
    rw [a2.open_] at ho'
    rcases body_handles hc hi1 ho.1 d with ⟨hh, hg, _, _⟩ | ⟨hj, hz, h0, hv, hh, hg, hk, hr⟩ | ⟨hj, hz, h0, hv, hh, hg, hk, hr⟩ | ⟨hf, hh, hg, hk, hr⟩ | ⟨hm, hv, hh, hg, hk, hr⟩ |
      ⟨hv, hh, hg, hk, hr⟩
    · exact hh j
    · rename_i m hd
      have e : j ≠ m := fun e => ho.2.2.1 (by rw [e]; exact hz)
      rw [hh, upd_other _ _ e]; exact ⟨rfl, rfl, rfl⟩
    · rename_i m hd
      have e : j ≠ m := fun e => ho.2.2.1 (by rw [e]; exact hz)
      rw [hh, upd_other _ _ e]; exact ⟨rfl, rfl, rfl⟩
    · rename_i m fd'
      by_cases e : j = m
      · subst e; exact absurd (by rw [hh, upd_same]) ho'.2.2.1
      · rw [hh, upd_other _ _ e]; exact ⟨rfl, rfl, rfl⟩
    · rw [hh]; exact ⟨rfl, rfl, rfl⟩
    · have h0 := ho'.2.2.1
      rw [hh] at h0 ⊢
      unfold closeAll at h0 ⊢
      split at h0
      · exact absurd rfl h0
      · rename_i e; rw [if_neg e]; exact ⟨rfl, rfl, rfl⟩

/-- The call closes descriptor `fd`, of handle `j`: it is `red_close`, `red_closedir`, or unmounts the volume `vol` of the file. -/
def Closes (pc : PConf) (fd : Int) (j vol : Nat) (e : PEv) : Prop :=
  e.res = .ok .unit ∧ (e.call = .close fd ∨ e.call = .closedir j ∨ ∃ path flags, e.call = .umount path flags ∧ VolName pc path vol)

/-- **C30** As long as a descriptor is not closed, it stands for the same file, and that file exists, whatever is called by whatever task. -/
theorem C30_same_file {tr : List PEv} (ho : Open pc s fd j) (hr : PRun pc s tr s') (hn : ∀ e ∈ tr, ¬ Closes pc fd j (s.handle j).vol e) :
    Open pc s' fd j ∧ (s'.handle j).ino = (s.handle j).ino ∧ (s'.handle j).vol = (s.handle j).vol ∧
    ∃ f f', s.files pc (s.handle j).vol (s.handle j).ino = some f ∧ s'.files pc (s.handle j).vol (s.handle j).ino = some f' ∧ (f'.mode = modeDir ↔ f.mode = modeDir) := by
  have key : Open pc s' fd j ∧ (s'.handle j).ino = (s.handle j).ino ∧ (s'.handle j).vol = (s.handle j).vol ∧ (s'.handle j).dir = (s.handle j).dir := by
    induction hr with
    | nil => exact ⟨ho, rfl, rfl, rfl⟩
    | call hr hp ih =>
      rename_i tr1 s1 t1 k1
      obtain ⟨o1, i1, v1, d1⟩ := ih fun e he => hn e (List.mem_append_left _ he)
      have h1 : PReach pc s1 := h.run hr
      have hl := hn ⟨t1, k1, (pexec pc t1 k1 s1).1⟩ (List.mem_append_right _ (List.mem_singleton.2 rfl))
      rcases PosixFd.C29_stays_open hc h1 hp rfl o1 with o2 | ⟨e1, e2⟩
      · obtain ⟨a, b, c⟩ := same_file hc h1 hp rfl o1 o2
        exact ⟨o2, a.trans i1, b.trans v1, c.trans d1⟩
      · exact absurd ⟨e1, v1 ▸ e2⟩ hl
  obtain ⟨o, i, v, d⟩ := key
  refine ⟨o, i, v, ?_⟩
  obtain ⟨f, hf, hd⟩ := (PosixFd.open_handle hc h ho).file
  obtain ⟨f', hf', hd'⟩ := (PosixFd.open_handle hc (h.run hr) o).file
  rw [i, v] at hf'
  exact ⟨f, f', hf, hf', by rw [← hd', ← hd, d]⟩

variable (hin : s.inited = true) (R : Registers pc t s s1)
include hin R

/-- **C30** `red_unlink`, and `red_rmdir` of a directory, fail with `EBUSY`, and change nothing, if they would remove the last name of a file or directory that is open or is a
current working directory. -/
theorem C30_unlink {path nm : List Byte} {vol p i : Nat} (hp : Permitted pc t k s) (hk : k = .unlink path ∨ (k = .rmdir path ∧ ∃ f, IsDir (s.files pc vol) i f))
    (hN : Names pc s1 t path .ebusy (.ok (vol, p, nm))) (hH : Has (pc.conf vol) (s.files pc vol) p nm i) (hh : Held pc s vol i) :
    (pexec pc t k s).1 = .error .ebusy ∧ Unchanged pc s (pexec pc t k s).2 := by
  have hni : k ≠ .init := by rintro rfl; rcases hk with h | ⟨h, _⟩ <;> cases h
  have hb : ¬ k.Bad := by rcases hk with rfl | ⟨rfl, _⟩ <;> exact id
  obtain ⟨s2, d, a2⟩ := call_body hc h hp hni hin hb R
  have hi1 := R.inv (h.inv hc) hp.1
  have a1 := R.alike
  have hin1 := a1.inited.trans hin
  obtain ⟨hv, hm⟩ := Names.at hc hi1 hin1 hp.1 hN
  have hF : s1.files pc vol = s.files pc vol := by unfold PSt.files; rw [a1.vols]
  have key : ∀ {dir : Prop} {r0 : Except Err Unit}, UnlinkDoes pc t path dir s1 r0 s2 →
      ((dir ∧ (∃ f, IsReg (s.files pc vol) i f) ∧ r0 = .error .enotdir) ∨ ((dir → ∃ f, IsDir (s.files pc vol) i f) ∧ r0 = .error .ebusy)) ∧ Unchanged pc s (pexec pc t k s).2 := by
    intro dir r0 d
    rcases d with ⟨e, hx, _⟩ | ⟨vol', p', nm', hN', d, dh⟩
    · have := Names.det hc hi1 hin1 hp.1 hN hx; cases this
    · have := Names.det hc hi1 hin1 hp.1 hN hN'; cases this
      have hrel := d.rel
      rw [hF] at hrel
      rcases hrel with ⟨e, hl, _⟩ | ⟨i', hH', hrel⟩
      · exfalso
        exact lookup_has (hc.sys _ hv) (hc.posix _ hv) ((h.inv hc).reach _ hv) (a1.vols ▸ hm) hH hl
      · have hm' : (s.vols vol).mounted = true := by rw [← a1.vols]; exact hm
        have := Names.has_fun (hc.sys _ hv) (hc.posix _ hv) ((h.inv hc).reach _ hv) hm' hH hH'; subst this
        have hh' : Held pc s1 vol i := (Alike.held a1).2 hh
        have fin : ∀ {e}, r0 = .error e → s2.files pc vol = s.files pc vol → Unchanged pc s (pexec pc t k s).2 := fun _ hf =>
          unchanged_onVol a1 dh ⟨d.lt, d.inited, d.slot, d.gen, d.others, d.up, d.up', d.ro, d.mask, hf.trans hF.symm⟩ a2
        rcases hrel with ⟨hd, hr, h1, h2⟩ | ⟨hd, hx⟩
        · exact ⟨Or.inl ⟨hd, hr, h1⟩, fin h1 h2⟩
        · obtain ⟨h1, h2⟩ := hx.1 hh'
          exact ⟨Or.inr ⟨hd, h1⟩, fin h1 h2⟩
  generalize (pexec pc t k s).1 = r at *
  generalize (pexec pc t k s).2 = s' at *
  rcases hk with rfl | ⟨rfl, hdir⟩
  · obtain ⟨r0, hr, d⟩ := d
    obtain ⟨h1, h2⟩ := key d
    refine ⟨?_, h2⟩
    rcases h1 with ⟨hd, _⟩ | ⟨_, h1⟩
    · exact hd.elim
    · rw [hr, h1]; rfl
  · obtain ⟨r0, hr, d⟩ := d
    obtain ⟨h1, h2⟩ := key d
    refine ⟨?_, h2⟩
    rcases h1 with ⟨_, hr, _⟩ | ⟨_, h1⟩
    · exact (reg_not_dir (hc.sys _ hv) (hc.posix _ hv) hr.choose_spec hdir.choose_spec).elim
    · rw [hr, h1]; rfl

/-- **C30** A rename that would remove the last name of a file or directory that is open or is a current working directory fails with `EBUSY` and changes nothing. -/
theorem C30_rename {old new nm nm' : List Byte} {vol p p' i : Nat} (hat : pc.atomic = true) (hp : Permitted pc t (.rename old new) s)
    (hN : Names pc s1 t old .ebusy (.ok (vol, p, nm))) (hN' : Names pc s1 t new .ebusy (.ok (vol, p', nm'))) (hH : Has (pc.conf vol) (s.files pc vol) p' nm' i) (hh : Held pc s vol i) :
    (pexec pc t (.rename old new) s).1 = .error .ebusy ∧ Unchanged pc s (pexec pc t (.rename old new) s).2 := by
  obtain ⟨s2, d, a2⟩ := call_body hc h hp (by simp) hin id R
  have hi1 := R.inv (h.inv hc) hp.1
  have a1 := R.alike
  have hin1 := a1.inited.trans hin
  obtain ⟨hv, hm⟩ := Names.at hc hi1 hin1 hp.1 hN
  have hF : s1.files pc vol = s.files pc vol := by unfold PSt.files; rw [a1.vols]
  have hh' : Held pc s1 vol i := (Alike.held a1).2 hh
  generalize (pexec pc t (.rename old new) s).1 = r at *
  generalize (pexec pc t (.rename old new) s).2 = s' at *
  obtain ⟨r0, hr, d⟩ := d
  rcases d with ⟨e, hx, _⟩ | ⟨e, _, _, hx, _⟩ | ⟨x, y, hx, hy, hne, _⟩ | ⟨e, _, _, _, _, _, hx, _⟩ | ⟨e, _, _, _, _, _, _, hx, _⟩ | ⟨vol1, q, n, q', n', hX, hX', d⟩
  · cases hN with | ok hN => have := hN.det hc hi1 hin1 hp.1 hx; cases this
  · cases hN' with | ok hN' => have := hN'.det hc hi1 hin1 hp.1 hx; cases this
  · cases hN with | ok hN => cases hN' with | ok hN' =>
      have e1 := hN.det hc hi1 hin1 hp.1 hx
      have e2 := hN'.det hc hi1 hin1 hp.1 hy
      cases e1; cases e2; exact absurd rfl hne
  · have := Names.det hc hi1 hin1 hp.1 hN hx; cases this
  · have := Names.det hc hi1 hin1 hp.1 hN' hx; cases this
  · have e1 := Names.det hc hi1 hin1 hp.1 hN hX; cases e1
    have e2 := Names.det hc hi1 hin1 hp.1 hN' hX'; cases e2
    rcases d with ⟨e, _, hl, hne, _⟩ | ⟨i', _, _, _, d⟩ | ⟨hx, _⟩
    · exfalso
      rw [hF] at hl
      exact lookup_has (hc.sys _ hv) (hc.posix _ hv) ((h.inv hc).reach _ hv) (a1.vols ▸ hm) hH hl
    · exact ⟨by rw [hr, d.1]; rfl, unchanged_of a1 d.2 a2⟩
    · exact absurd hh' (hx hat i (hF ▸ hH))

/-- **C30** A volume with open files is not unmounted (without `RED_UMOUNT_FORCE`) and not rolled back. -/
theorem C30_umount {path : List Byte} {i : Nat} (hp : Permitted pc t k s) (hk : k = .umount path 0 ∨ k = .rollback path) (hv : VolName pc path i) (hu : VolInUse pc s i) :
    (pexec pc t k s).1 = .error .ebusy ∧ Unchanged pc s (pexec pc t k s).2 := by
  have hni : k ≠ .init := by rintro rfl; rcases hk with h | h <;> cases h
  have hb : ¬ k.Bad := by rcases hk with rfl | rfl <;> exact id
  obtain ⟨s2, d, a2⟩ := call_body hc h hp hni hin hb R
  have hi1 := R.inv (h.inv hc) hp.1
  have a1 := R.alike
  have hin1 := a1.inited.trans hin
  have hu1 : VolInUse pc s1 i := (Alike.volInUse a1).2 hu
  have hm : (s1.vols i).mounted = true := by
    obtain ⟨k, hk, h0, hv⟩ := hu1
    rw [← hv]; exact (hi1.handle hin1 k hk h0).mounted
  generalize (pexec pc t k s).1 = r at *
  generalize (pexec pc t k s).2 = s' at *
  rcases hk with rfl | rfl
  · obtain ⟨r0, hr, d⟩ := d
    rcases d with ⟨e, _⟩ | ⟨_, e, _⟩ | ⟨i', hv', _, d⟩
    · omega
    · exact absurd hv (e i)
    · have := hv.uniq hc hv'; subst this
      rcases d with ⟨e, _⟩ | ⟨_, _, _, d⟩ | ⟨_, e, _⟩
      · rw [hm] at e; cases e
      · exact ⟨by rw [hr, d.1]; rfl, unchanged_of a1 d.2 a2⟩
      · exact absurd hu1 (e rfl)
  · obtain ⟨r0, hr, d⟩ := d
    rcases d with ⟨e, _⟩ | ⟨i', hv', d⟩
    · exact absurd hv (e i)
    · have := hv.uniq hc hv'; subst this
      rcases d with ⟨_, d⟩ | ⟨e, _⟩
      · exact ⟨by rw [hr, d.1]; rfl, unchanged_of a1 d.2 a2⟩
      · exact absurd hu1 e

end

section
open RedFs.Posix

-- the file "/a", inode 3, is open; "/d", inode 4, is the current directory of task 5
theorem demo_vol0' {path : List Byte} (h : ¬ ∃ r, path = [47#8, 109#8] ++ r) : Selected demoPC path 0 := by
  refine ⟨by decide, Or.inl rfl, fun j hj hm => ?_⟩
  have hj : j < 2 := hj
  rcases Nat.lt_or_ge j 1 with h1 | h1
  · rw [show j = 0 by omega]
  · rw [show j = 1 by omega] at hm
    rcases hm with hm | hm | ⟨r, hm⟩
    · cases hm
    · exact absurd ⟨[], by rw [hm]; rfl⟩ h
    · exact absurd ⟨_, hm⟩ h

theorem demo_reg : Registers demoPC 5 demoS demoS := .old (i := 0) (by decide) (by decide) (by decide +kernel)
theorem demo_up : (demoS.vols 0).mounted = true := by decide +kernel
theorem demo_has_a : Has demoConf (RedFs.files demoConf (demoS.vols 0)) 2 [97#8] 3 := ⟨0, by decide +kernel⟩
theorem demo_has_d : Has demoConf (RedFs.files demoConf (demoS.vols 0)) 2 [100#8] 4 := ⟨1, by decide +kernel⟩

theorem demo_names {x : Byte} (h : comps 47#8 [47#8, x] = [[x]]) (hd : ¬ Dotty [x]) (hm : x ≠ 109#8) : Names demoPC demoS 5 [47#8, x] .ebusy (.ok (0, 2, [x])) :=
  .ok (start := 2) (l := [47#8, x]) (.abs (fun _ _ => Or.inr rfl) (demo_vol0' (by rintro ⟨r, hr⟩; injection hr with _ hr; injection hr with hr; exact hm hr))) demo_up
    (by rw [show demoPC.sep = 47#8 from rfl, h]; exact .name (cs := []) (fun hx => hd hx.2) .done)

theorem demo_nlink_a : (RedFs.files demoConf (demoS.vols 0) 3).map (fun f => f.nlink) = some 1 := by decide +kernel
theorem demo_nlink_d : (RedFs.files demoConf (demoS.vols 0) 4).map (fun f => f.nlink) = some 1 := by decide +kernel
theorem demo_dir_d : (RedFs.files demoConf (demoS.vols 0) 4).map (fun f => f.mode) = some modeDir := by decide +kernel
theorem map_some' {α β : Type} {o : Option α} {f : α → β} {b : β} (h : o.map f = some b) : ∃ a, o = some a ∧ f a = b := by simpa using h
theorem demo_held_a : Held demoPC demoS 0 3 := ⟨Or.inl ⟨0, by decide, by decide +kernel, by decide +kernel⟩, map_some' demo_nlink_a⟩
theorem demo_held_d : Held demoPC demoS 0 4 := ⟨Or.inr ⟨rfl, 0, by decide, by decide +kernel, by decide +kernel⟩, map_some' demo_nlink_d⟩

example : (pexec demoPC 5 (.unlink [47#8, 97#8]) demoS).1 = .error .ebusy := (C30_unlink demoPC_ok demoS_reach demo_inited demo_reg (demoP (by decide) rfl _) (Or.inl rfl)
  (demo_names (by decide) (by unfold Dotty; decide) (by decide)) demo_has_a demo_held_a).1
example : (pexec demoPC 5 (.rmdir [47#8, 100#8]) demoS).1 = .error .ebusy := (C30_unlink demoPC_ok demoS_reach demo_inited demo_reg (demoP (by decide) rfl _) (Or.inr ⟨rfl, map_some' demo_dir_d⟩)
  (demo_names (by decide) (by unfold Dotty; decide) (by decide)) demo_has_d demo_held_d).1
example : (pexec demoPC 5 (.rename [47#8, 100#8] [47#8, 97#8]) demoS).1 = .error .ebusy := (C30_rename demoPC_ok demoS_reach demo_inited demo_reg rfl (demoP (by decide) rfl _)
  (demo_names (by decide) (by unfold Dotty; decide) (by decide)) (demo_names (by decide) (by unfold Dotty; decide) (by decide)) demo_has_a demo_held_a).1
theorem demo_use : VolInUse demoPC demoS 0 := ⟨0, by decide, by decide +kernel, by decide +kernel⟩
example : (pexec demoPC 5 (.umount [] 0) demoS).1 = .error .ebusy := (C30_umount demoPC_ok demoS_reach demo_inited demo_reg (demoP (by decide) rfl _) (Or.inl rfl) demo_vol0 demo_use).1
example : (pexec demoPC 5 (.rollback []) demoS).1 = .error .ebusy := (C30_umount demoPC_ok demoS_reach demo_inited demo_reg (demoP (by decide) rfl _) (Or.inr rfl) demo_vol0 demo_use).1
example : ∃ f, RedFs.files demoConf (demoS.vols (demoS.handle 0).vol) (demoS.handle 0).ino = some f := let ⟨f, hf, _⟩ := (C30_open_exists demoPC_ok demoS_reach demo_fd0).2.2.1; ⟨f, hf⟩
example : (demoS.slot 0).cwdVol < 2 := (C30_cwd_exists demoPC_ok demoS_reach demo_inited rfl (j := 0) (by decide)).1
-- the other descriptor is closed: this one stays open
example : ∃ s', PRun demoPC demoS [⟨5, .close 1052673, (pexec demoPC 5 (.close 1052673) demoS).1⟩] s' ∧ Open demoPC s' 1048576 0 :=
  ⟨_, .call .nil (demoP (by decide) rfl _), (C30_same_file demoPC_ok demoS_reach demo_fd0 (.call .nil (demoP (t := 5) (k := .close 1052673) (by decide) rfl _)) (by
    intro e he
    rw [List.nil_append, List.mem_singleton] at he
    rw [he]
    rintro ⟨_, h | h | ⟨_, _, h, _⟩⟩
    · injection h with h; exact absurd h (by decide)
    · cases h
    · cases h)).1⟩
end

end RedFs.Props.PosixUse
