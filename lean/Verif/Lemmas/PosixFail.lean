import Verif.Spec.PosixFail
import Verif.Props.PosixDurable
import Verif.Lemmas.PosixErr
set_option linter.unusedSimpArgs false
set_option linter.unusedVariables false
set_option linter.unusedSectionVars false
/-!
Calls that fail.
-/
namespace RedFs
open M Str Path Spec

/-- A call on a whole volume that fails. -/
theorem Spec.Does.vol_error {c : Conf} {k : Call} {s s' : Sys} {e : Err} {tr : List Files} (h : Spec.Does c k s (.error e) s' tr)
    (hk : k = .transact ∨ k = .rollback ∨ (∃ m, k = .maskSet m) ∨ k = .maskGet ∨ k = .statfs ∨ ∃ ro, k = .mount ro) : s' = s := by
  rcases hk with rfl | rfl | ⟨m, rfl⟩ | rfl | rfl | ⟨ro, rfl⟩
  · have h : if _ then _ else _ := h
    split at h
    · exact h.2.1
    · split at h
      · exact h.2.1
      · cases h.1
  · obtain ⟨_, h⟩ := h
    split at h
    · exact h.2
    · split at h
      · exact h.2
      · cases h.1
  · obtain ⟨_, h⟩ := h
    split at h
    · exact h.2
    · split at h
      · exact h.2
      · cases h.1
  · exact h.1
  · exact h.1
  · obtain ⟨_, h⟩ := h
    split at h
    · exact h.1
    · split at h
      · exact h.2
      · cases h.1

namespace Posix

/-- A volume that is not changed. -/
structure VStrong (c : Conf) (v v' : Vol) : Prop where
  mounted : v'.mounted = v.mounted
  mask : v'.transMask = v.transMask
  ro : v.mounted = true → v'.readOnly = v.readOnly
  files : v.mounted = true → RedFs.files c v' = RedFs.files c v
  disk : ∀ F, OnDisk c v' F ↔ OnDisk c v F
/-- A volume of which the files are not changed. -/
structure VWeak (c : Conf) (v v' : Vol) : Prop where
  up : v.mounted = true
  mounted : v'.mounted = v.mounted
  mask : v'.transMask = v.transMask
  ro : v'.readOnly = v.readOnly
  files : RedFs.files c v' = RedFs.files c v

theorem VStrong.refl (c : Conf) (v : Vol) : VStrong c v v := ⟨rfl, rfl, fun _ => rfl, fun _ => rfl, fun _ => Iff.rfl⟩
theorem _root_.RedFs.Same.strong {c : Conf} {v v' : Vol} (h : Same c v v') : VStrong c v v' := by
  refine ⟨h.mounted, h.mask, fun _ => h.ro, h.files, fun F => ?_⟩
  cases hm : v.mounted with
  | false => rw [h.off hm]
  | true => unfold OnDisk; rw [h.mounted, hm, h.disk hm]; simp
theorem strong_of_abs {c : Conf} (hc : c.SysOk) {v v' : Vol} {y : Sys} (h : Abs c v y) (h' : Abs c v' y) : VStrong c v v' := by
  have hm : v'.mounted = v.mounted := h'.mounted_iff.symm.trans h.mounted_iff
  refine ⟨hm, ?_, fun hx => ?_, fun hx => ?_, fun F => ?_⟩
  · have f : ∀ {v : Vol}, Abs c v y → y.mask = v.transMask := by intro v h; cases h <;> assumption
    rw [← f h', ← f h]
  · have f : ∀ {v : Vol}, v.mounted = true → Abs c v y → y.ro = v.readOnly := by
      intro v hx h
      have hy := h.mounted_iff.trans hx
      cases h with
      | up => assumption
      | off h1 => rw [h1] at hy; cases hy
      | none h1 => rw [h1] at hy; cases hy
    rw [← f hx h, ← f (hm.trans hx) h']
  · have f : ∀ {v : Vol}, v.mounted = true → Abs c v y → y.now = RedFs.files c v := by
      intro v hx h
      have hy := h.mounted_iff.trans hx
      cases h with
      | up => assumption
      | off h1 => rw [h1] at hy; cases hy
      | none h1 => rw [h1] at hy; cases hy
    rw [← f hx h, ← f (hm.trans hx) h']
  · rw [Props.PosixDurable.onDisk_iff hc h, Props.PosixDurable.onDisk_iff hc h']

variable {pc : PConf} {s s' s1 : PSt} {t : Nat}

/-- The calls that change files, or go through `FildesOpen`. -/
def PCall.changes : PCall → Bool
  | .opendir _ => true
  | .open _ _ => true
  | .unlink _ => true
  | .mkdir _ => true
  | .rmdir _ => true
  | .rename _ _ => true
  | .link _ _ => true
  | .write _ _ _ => true
  | .ftruncate _ _ => true
  | _ => false

/-- What is left by a call that fails. -/
structure BFail (pc : PConf) (k : PCall) (s s' : PSt) : Prop where
  inited : s'.inited = s.inited
  gen : s'.gen = s.gen
  slot : s'.slot = s.slot
  handle : ∀ j, s'.handle j = s.handle j ∨
    ∃ fd len buf f, k = .write fd len buf ∧ IsFd pc s fd j ∧ (s.handle j).appending = true ∧ s.files pc (s.handle j).vol (s.handle j).ino = some f ∧
      s'.handle j = { s.handle j with off := f.size }
  vol : ∀ i, i < pc.n → VStrong (pc.conf i) (s.vols i) (s'.vols i) ∨ (k.changes = true ∧ VWeak (pc.conf i) (s.vols i) (s'.vols i))

theorem BFail.same {k : PCall} (h : s' = s) : BFail pc k s s' := by
  subst h; exact ⟨rfl, rfl, rfl, fun _ => Or.inl rfl, fun _ _ => Or.inl (.refl _ _)⟩
theorem Quiet.fail {k : PCall} (h : Quiet pc s s') : BFail pc k s s' :=
  ⟨h.inited, h.gen, h.slot, fun _ => Or.inl (by rw [h.handle]), fun i hi => Or.inl (h.vols i hi).strong⟩
theorem Fails.fail {α : Type} {r : Except Err α} {e : Err} {k : PCall} (h : Fails pc s r s' e) : BFail pc k s s' := h.2.fail
theorem OnVol.fail {vol : Nat} {R : Files → Files → Prop} {k : PCall} (o : OnVol pc vol s s' R) (hk : k.changes = true) (hh : s'.handle = s.handle)
    (hf : ∀ F F', R F F' → F' = F) : BFail pc k s s' :=
  ⟨o.inited, o.gen, o.slot, fun _ => Or.inl (by rw [hh]), fun i hi => by
    by_cases e : i = vol
    · subst e; exact Or.inr ⟨hk, o.up, o.up'.trans o.up.symm, o.mask, o.ro, hf _ _ o.rel⟩
    · exact Or.inl (o.others i hi e).strong⟩
theorem CoreCall.fail (hc : pc.Ok) (hi : PInv pc s) {i : Nat} (hv : i < pc.n) {c : Call} {e : Err} {k : PCall} (h : CoreCall pc i c s (.error e) s') (hk : c.Ok (pc.conf i))
    (hx : c = .transact ∨ c = .rollback ∨ (∃ m, c = .maskSet m) ∨ c = .maskGet ∨ c = .statfs ∨ ∃ ro, c = .mount ro)
    (h1 : s'.inited = s.inited) (h2 : s'.gen = s.gen) (h3 : s'.slot = s.slot) (h4 : s'.handle = s.handle) : BFail pc k s s' := by
  refine ⟨h1, h2, h3, fun _ => Or.inl (by rw [h4]), fun j hj => Or.inl ?_⟩
  by_cases e : j = i
  · subst e
    obtain ⟨y, ha⟩ := (hi.reach j hv).abs (hc.sys j hv)
    obtain ⟨r', v', y', tr, e, d, ha', _⟩ := exec_sim (hc.sys j hv) ha hk
    have h5 := h.1
    rw [e] at h5
    injection h5 with h5 h6
    subst h5
    have := d.vol_error hx
    subst this
    rw [h6]
    exact strong_of_abs (hc.sys j hv) ha ha'
  · rw [h.2 j e]; exact .refl _ _

theorem rw_fail {α : Type} {vol : Nat} {R : Files → Except Err α → Files → Prop} {e : Err} {F F' : Files} (hR : R F (.error e) F' → F' = F) (h : Rw s vol R (.error e) F F') : F' = F := by
  unfold Rw at h
  split at h
  · exact h.2
  · exact hR h


theorem openExisting_fail {vol i mode : Nat} {type : FType} {e : Err} {k : PCall} (hk : k.changes = true) (h : OpenExisting pc vol i mode type s (.error e) s') : BFail pc k s s' := by
  have op : ∀ {m d}, ¬ Opened pc s vol i m d (.error e) s' := by rintro m d ⟨_, _, _, _, h, _⟩; cases h
  rcases h with ⟨_, _, _, o, hh⟩ | ⟨_, _, _, o, hh⟩ | ⟨_, _, _, _, _, _, h⟩ | ⟨_, r0, _, _, _, _, o, ⟨x, rfl, _, hh⟩ | ⟨_, h⟩⟩
  · exact o.fail hk hh (fun _ _ h => h)
  · exact o.fail hk hh (fun _ _ h => h)
  · exact absurd h op
  · exact o.fail hk hh (fun _ _ h => rw_fail (fun h => h.1) h)
  · exact absurd h op

theorem fildesOpen_fail {t : Nat} {path : List Byte} {mode : Nat} {type : FType} {e : Err} {k : PCall} (hk : k.changes = true) (h : FildesOpenDoes pc t path mode type s (.error e) s') : BFail pc k s s' := by
  rcases h with ⟨_, _, h⟩ | ⟨vol, start, l, _, h⟩
  · exact h.fail
  by_cases h1 : (s.vols vol).readOnly = true ∧ mode ≠ oRdonly
  · exact (h.1 h1).fail
  replace h := h.2 h1
  by_cases h2 : ∀ k, k < pc.handles → (s.handle k).ino ≠ 0
  · exact (h.1 h2).fail
  replace h := h.2 h2
  by_cases h3 : has mode oCreat = true
  · rcases h.1 h3 with ⟨_, _, h⟩ | ⟨p, nm, _, ⟨_, _, h⟩ | ⟨_, _, _, o, hh⟩ | ⟨_, _, _, h⟩⟩
    · exact h.fail
    · obtain ⟨_, _, _, _, h, _⟩ := h; cases h
    · exact o.fail hk hh (fun _ _ h => h.1)
    · exact openExisting_fail hk h
  · rcases h.2 h3 with ⟨_, _, h⟩ | ⟨_, _, h⟩
    · exact h.fail
    · exact openExisting_fail hk h

theorem remove_fail {c : Conf} {held : Nat → Prop} {dir : Prop} {ro : Bool} {p : Nat} {nm : List Byte} {F F' : Files} {e : Err} (h : Remove c held dir ro p nm F (.error e) F') : F' = F := by
  rcases h with ⟨_, _, _, h⟩ | ⟨i, _, ⟨_, _, _, h⟩ | ⟨_, h⟩⟩
  · exact h
  · exact h
  · by_cases x : held i
    · exact (h.1 x).2
    · have h := h.2 x
      split at h
      · exact h.2
      · exact h.1

/-- A call that fails, once the driver is initialized and the task is registered. -/
theorem body_fail (hc : pc.Ok) (hi : PInv pc s) {k : PCall} {e : Err} (h : BodyDoes pc t k s (.error e) s') : BFail pc k s s' := by
  have un : ∀ {α : Type} {f : α → PReply} {r0 : Except Err α}, Except.error e = r0.map f → r0 = .error e := by
    intro α f r0 h; cases r0 with
    | error x => injection h with h; rw [h]
    | ok a => cases h
  have vol : ∀ {α : Type} {path : List Byte} {k : Call} {f : α → Reply} {k' : PCall}, VolDoes pc path k f s (.error e) s' → (∀ i, i < pc.n → k.Ok (pc.conf i)) →
      (k = .transact ∨ k = .rollback ∨ (∃ m, k = .maskSet m) ∨ k = .maskGet ∨ k = .statfs ∨ ∃ ro, k = .mount ro) → BFail pc k' s s' := by
    intro α path k f k' h hk hx
    rcases h with ⟨_, h⟩ | ⟨i, hv, h, hr⟩
    · exact h.fail
    · exact CoreCall.fail hc hi hv.1.1 h (hk i hv.1.1) hx hr.inited hr.gen hr.slot hr.handle
  cases k with
  | init => exact absurd h id
  | uninit =>
    obtain ⟨r0, hr, h⟩ := h
    replace hr := un hr; subst hr
    by_cases x : ∃ i, i < pc.n ∧ (s.vols i).mounted = true
    · exact .same (h.1 x).2
    · have := (h.2 x).1; cases this
  | sync => obtain ⟨r0, hr, h⟩ := h; replace hr := un hr; subst hr; cases h.1
  | mount v flags =>
    obtain ⟨r0, hr, h⟩ := h
    replace hr := un hr; subst hr
    rcases h with ⟨_, h⟩ | ⟨i, hv, ⟨_, h⟩ | ⟨_, _, h⟩ | ⟨hm, _, h, h1, h2, h3, h4⟩⟩
    · exact h.fail
    · exact h.fail
    · exact h.fail
    · exact CoreCall.fail hc hi hv.1.1 h trivial (by simp) h1 h4 h3 h2
  | umount v flags =>
    obtain ⟨r0, hr, h⟩ := h
    replace hr := un hr; subst hr
    rcases h with ⟨_, h⟩ | ⟨_, _, h⟩ | ⟨i, hv, _, ⟨_, h⟩ | ⟨_, _, _, h⟩ | ⟨_, _, hr, h, _⟩⟩
    · exact h.fail
    · exact h.fail
    · exact h.fail
    · exact h.fail
    · cases hr
  | format v =>
    obtain ⟨r0, hr, h⟩ := h
    replace hr := un hr; subst hr
    rcases h with ⟨_, h⟩ | ⟨i, hv, ⟨_, h⟩ | ⟨_, hr, _⟩⟩
    · exact h.fail
    · exact h.fail
    · cases hr
  | transact v => obtain ⟨r0, hr, h⟩ := h; replace hr := un hr; subst hr; exact vol h (fun _ _ => trivial) (by simp)
  | rollback v =>
    obtain ⟨r0, hr, h⟩ := h
    replace hr := un hr; subst hr
    rcases h with ⟨_, h⟩ | ⟨i, hv, ⟨_, h⟩ | ⟨_, h, h1, h2, h3, h4⟩⟩
    · exact h.fail
    · exact h.fail
    · exact CoreCall.fail hc hi hv.1.1 h trivial (by simp) h1 h3 h4 h2
  | setMask v mask => obtain ⟨r0, hr, h⟩ := h; replace hr := un hr; subst hr; exact vol h (fun _ _ => trivial) (by simp)
  | getMask v => obtain ⟨r0, hr, h⟩ := h; replace hr := un hr; subst hr; exact vol h (fun _ _ => trivial) (by simp)
  | statvfs v => obtain ⟨r0, hr, h⟩ := h; replace hr := un hr; subst hr; exact vol h (fun i hi => hc.posix i hi) (by simp)
  | «open» path mode =>
    obtain ⟨r0, hr, h⟩ := h
    replace hr := un hr; subst hr
    by_cases hm : ModeOk mode
    · exact fildesOpen_fail rfl (h.1 hm)
    · exact (h.2 hm).fail
  | unlink path =>
    obtain ⟨r0, hr, h⟩ := h
    replace hr := un hr; subst hr
    rcases h with ⟨_, hn, h⟩ | ⟨v, p, nm, hn, o, h⟩
    · exact h.fail
    · exact o.fail rfl h fun _ _ h => remove_fail h
  | mkdir path =>
    obtain ⟨r0, hr, h⟩ := h
    replace hr := un hr; subst hr
    rcases h with ⟨_, hn, h⟩ | ⟨v, p, nm, r1, hn, hr, o, h⟩
    · exact h.fail
    · have hr : r1 = .error e := by cases r1 with | error x => injection hr with hr; rw [hr] | ok a => cases hr
      subst hr
      exact o.fail rfl h fun _ _ h => rw_fail (fun h => h.1) h
  | rmdir path =>
    obtain ⟨r0, hr, h⟩ := h
    replace hr := un hr; subst hr
    rcases h with ⟨_, hn, h⟩ | ⟨v, p, nm, hn, o, h⟩
    · exact h.fail
    · exact o.fail rfl h fun _ _ h => remove_fail h
  | rename old new =>
    obtain ⟨r0, hr, h⟩ := h
    replace hr := un hr; subst hr
    rcases h with ⟨_, hs, h⟩ | ⟨_, _, _, hs, h⟩ | ⟨_, _, _, _, _, h⟩ | ⟨_, _, _, _, _, _, hn, h⟩ | ⟨_, _, _, _, _, _, _, hn, h⟩ | ⟨v, p, nm, p', nm', hn, hn', h⟩
    · exact h.fail
    · exact h.fail
    · exact h.fail
    · exact h.fail
    · exact h.fail
    · rcases h with ⟨x, _, hl, _, h⟩ | ⟨_, _, _, _, h⟩ | ⟨_, o, h⟩
      · exact h.fail
      · exact h.fail
      · exact o.fail rfl h fun _ _ h => rw_fail (fun h => h.1) h
  | link path new =>
    obtain ⟨r0, hr, h⟩ := h
    replace hr := un hr; subst hr
    rcases h with ⟨_, hs, h⟩ | ⟨_, _, _, hs, h⟩ | ⟨_, _, _, _, _, h⟩ | ⟨_, _, _, _, _, _, hn, h⟩ | ⟨_, _, _, _, _, _, _, hn, h⟩ | ⟨v, i, p, nm, hf, hn, o, h⟩
    · exact h.fail
    · exact h.fail
    · exact h.fail
    · exact h.fail
    · exact h.fail
    · exact o.fail rfl h fun _ _ h => rw_fail (fun h => h.1) h
  | close fd =>
    obtain ⟨r0, hr, h⟩ := h
    replace hr := un hr; subst hr
    rcases h with ⟨_, h⟩ | ⟨k, _, h, _, _⟩
    · exact h.fail
    · cases h
  | read fd len =>
    obtain ⟨r0, hr, h⟩ := h
    replace hr := un hr; subst hr
    rcases h with ⟨_, hb, h⟩ | ⟨k, _, ⟨_, h⟩ | ⟨f, _, _, h, q⟩⟩
    · exact h.fail
    · exact h.fail
    · cases h
  | write fd len buf =>
    obtain ⟨r0, hr, h⟩ := h
    replace hr := un hr; subst hr
    rcases h with ⟨_, h⟩ | ⟨k, hf, ⟨_, h⟩ | ⟨f, pos, hwr, hreg, hpos, o, hh⟩⟩
    · exact h.fail
    · exact h.fail
    · dsimp only at hh
      refine ⟨o.inited, o.gen, o.slot, fun j => ?_, fun i hi => ?_⟩
      · rw [hh]
        unfold upd
        split
        · next e =>
          subst e
          by_cases ha : (s.handle j).appending = true
          · rw [if_pos ha] at hpos; subst hpos; exact Or.inr ⟨fd, len, buf, f, rfl, hf.1, ha, hreg.1, rfl⟩
          · rw [if_neg ha] at hpos; subst hpos; exact Or.inl rfl
        · exact Or.inl rfl
      · by_cases e : i = (s.handle k).vol
        · subst e; exact Or.inr ⟨rfl, o.up, o.up'.trans o.up.symm, o.mask, o.ro, rw_fail (fun h => h.1) o.rel⟩
        · exact Or.inl (o.others i hi e).strong
  | fsync fd =>
    obtain ⟨r0, hr, h⟩ := h
    replace hr := un hr; subst hr
    rcases h with ⟨_, h⟩ | ⟨k, hf, ⟨h1, h2, h⟩ | ⟨h, _⟩⟩
    · exact h.fail
    · exact h.fail
    · cases h
  | lseek fd off whence =>
    obtain ⟨r0, hr, h⟩ := h
    replace hr := un hr; subst hr
    rcases h with ⟨_, hb, h⟩ | ⟨k, f, _, _, ⟨_, h⟩ | ⟨o, _, h⟩⟩
    · exact h.fail
    · exact h.fail
    · by_cases x : 0 ≤ (o : Int) + off ∧ (o : Int) + off ≤ (pc.conf (s.handle k).vol).sizeMax
      · obtain ⟨_, _, h, q⟩ := h.1 x; cases h
      · exact (h.2 x).fail
  | ftruncate fd size =>
    obtain ⟨r0, hr, h⟩ := h
    replace hr := un hr; subst hr
    rcases h with ⟨_, h⟩ | ⟨k, hf, ⟨_, h⟩ | ⟨hwr, o, h⟩⟩
    · exact h.fail
    · exact h.fail
    · exact o.fail rfl h fun _ _ h => rw_fail (fun h => h.1) h
  | fstat fd =>
    obtain ⟨r0, hr, h⟩ := h
    replace hr := un hr; subst hr
    rcases h with ⟨_, h⟩ | ⟨k, _, _, h, _, q⟩
    · exact h.fail
    · cases h
  | opendir path =>
    obtain ⟨r0, hr, r1, h, hr1⟩ := h
    replace hr := un hr; subst hr
    rcases hr1 with ⟨x, h1, h2⟩ | ⟨_, _, _, h2⟩
    · cases h2
      subst h1
      exact fildesOpen_fail rfl h
    · cases h2
  | readdir dir =>
    obtain ⟨r0, hr, h⟩ := h
    replace hr := un hr; subst hr
    rcases h with ⟨_, h⟩ | ⟨_, _, _, _, q, ⟨_, h⟩ | ⟨_, _, _, _, h, _⟩⟩
    · exact h.fail
    · cases h
    · cases h
  | rewinddir dir => obtain ⟨r0, hr, h⟩ := h; replace hr := un hr; subst hr; cases h.1
  | closedir dir =>
    obtain ⟨r0, hr, h⟩ := h
    replace hr := un hr; subst hr
    by_cases x : IsDirStream pc s dir
    · have := (h.1 x).1; cases this
    · exact .same (h.2 x).2
  | chdir path =>
    obtain ⟨r0, hr, h⟩ := h
    replace hr := un hr; subst hr
    rcases h with ⟨_, hf, h⟩ | ⟨_, _, _, ⟨_, h⟩ | ⟨_, h, _⟩⟩
    · exact h.fail
    · exact h.fail
    · cases h
  | getcwd size => obtain ⟨r0, hr, q, j, _, h⟩ := h; exact q.fail

end Posix
end RedFs
