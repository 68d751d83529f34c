import Verif.Lemmas.PosixFail
import Verif.Lemmas.PosixDemo
import Verif.Props.PosixErr
set_option linter.unusedSimpArgs false
set_option linter.unusedVariables false
set_option linter.unusedSectionVars false
/-!
C51: a call that fails changes nothing.
-/
namespace RedFs.Props.PosixFail
open RedFs Posix M Str Spec

variable {pc : PConf} {s s' : PSt} {t : Nat}

/-- **C51** A call of the POSIX API that fails changes nothing, in any reachable state: not the files of a volume, not what is on the disk (but see `VolSame`
for what happens when there was no space), not how a volume is mounted, no descriptor or directory stream (but see `Unaltered` for descriptors opened with
`RED_O_APPEND`) and no current directory. -/
theorem C51_unaltered (hc : pc.Ok) (h : PReach pc s) {k : PCall} (hp : Permitted pc t k s) {e : Err} (he : pexec pc t k s = (.error e, s')) :
    Unaltered pc k s s' := by
  have hi := h.inv hc
  have alike : Alike s s' → Unaltered pc k s s' := fun a =>
    ⟨a.inited, a.gen, a.cwdVol, a.cwdIno, fun j => Or.inl (by rw [a.handle]), fun i _ => by
      exact ⟨by rw [a.vols], by rw [a.vols], fun _ => by rw [a.vols], fun _ => by unfold PSt.files; rw [a.vols], Or.inl fun F => by rw [a.vols]⟩⟩
  rcases step_cases hc hi hp he with ⟨_, _, _, h⟩ | ⟨a, _⟩ | ⟨hin, s1, s2, R, hi1, a1, b, a2⟩
  · cases h
  · exact alike a
  · have f := body_fail hc hi1 b
    refine ⟨a2.inited.trans (f.inited.trans a1.inited), a2.gen.trans (f.gen.trans a1.gen), fun j => ?_, fun j => ?_, fun j => ?_, fun i hn => ?_⟩
    · rw [a2.cwdVol, f.slot, a1.cwdVol]
    · rw [a2.cwdIno, f.slot, a1.cwdIno]
    · rw [a2.handle]
      rcases f.handle j with x | ⟨fd, len, buf, g, x1, x2, x3, x4, x5⟩
      · left; rw [x, a1.handle]
      · right
        rw [a1.handle] at x3 x4 x5
        refine ⟨fd, len, buf, g, x1, ?_, x3, ?_, x5⟩
        · unfold IsFd PSt.fd at x2 ⊢; rw [← a1.handle, ← a1.gen]; exact x2
        · unfold PSt.files at x4 ⊢; rw [← a1.vols]; exact x4
    · rcases f.vol i hn with x | ⟨hk, x⟩
      · rw [a1.vols] at x
        exact ⟨by rw [a2.vols]; exact x.mounted, by rw [a2.vols]; exact x.mask, fun hm => by rw [a2.vols]; exact x.ro hm,
          fun hm => by unfold PSt.files; rw [a2.vols]; exact x.files hm, Or.inl fun F => by rw [a2.vols]; exact x.disk F⟩
      · rw [a1.vols, ← a2.vols] at x
        refine ⟨x.mounted, x.mask, fun _ => x.ro, fun _ => x.files, ?_⟩
        have hz : zOf k = some fun ev => ev ∈ k.events := by cases k <;> first | rfl | cases hk
        obtain ⟨y, ha⟩ := (hi.reach i hn).abs (hc.sys i hn)
        obtain ⟨y', tr, _, ha', hd, hkept, hpol, _⟩ := (pexec_evo hc hi hp.2.1 (by rintro v rfl; cases hk) he i hn).sim y ha
        rw [hz] at hpol
        have hm' := x.mounted.trans x.up
        obtain ⟨_, a1, _, _⟩ := ha.inv (ha.mounted_iff.trans x.up)
        obtain ⟨_, b1, _, _⟩ := ha'.inv (ha'.mounted_iff.trans hm')
        rcases List.mem_cons.1 hd with hd | hd
        · left
          intro F
          rw [PosixDurable.onDisk_iff (hc.sys i hn) ha', PosixDurable.onDisk_iff (hc.sys i hn) ha, hd]
        · right
          obtain ⟨G, hG, e⟩ := List.mem_map.1 hd
          obtain ⟨ev, h1, h2⟩ := hpol.1 G hG
          refine ⟨x.up, ⟨ev, h1, ?_⟩, (PosixDurable.onDisk_iff (hc.sys i hn) ha' _).2 ?_⟩
          · unfold Sys.on at h2
            unfold Vol.on
            rw [← h2]
            have : y.mask = (s.vols i).transMask := by cases ha <;> assumption
            rw [this]
          · rw [← e]
            rcases hkept.1 G hG with ⟨_, g⟩ | ⟨_, g⟩
            · rw [g, a1]
            · rw [g, b1, x.files]

/-! ### Examples -/

/-- The volume has been filled, and a second descriptor of the file has been opened with `RED_O_WRONLY | RED_O_APPEND`. -/
def failL : List (Nat × PCall) := [(5, .write 1048576 20000 fun _ => 65#8), (5, .open [47#8, 97#8] 10)]
def failS : PSt := pruns demoPC failL demoS
theorem failS_reach : PReach demoPC failS := PReach.steps rfl failL demoS_reach (by decide)
def failCall : PCall := .write 1048578 1 fun _ => 65#8
def failS' : PSt := (pexec demoPC 5 failCall failS).2
theorem fail_values : isError .enospc (pexec demoPC 5 failCall failS).1 = true ∧ (failS.handle 2).off = 0 ∧ (failS'.handle 2).off = 5504 := by decide +kernel

/-- `C51_unaltered`: a call that fails because the volume is full. -/
example : PReach demoPC failS ∧ Permitted demoPC 5 failCall failS ∧ ∃ s', pexec demoPC 5 failCall failS = (.error .enospc, s') :=
  ⟨failS_reach, demoP (by simp) (by decide) _, _, pexec_eta (isError_eq fail_values.1)⟩

/-- **C51** The exception occurs: a write that fails moves the offset of a descriptor opened with `RED_O_APPEND`. -/
theorem C51_append_moves : PReach demoPC failS ∧ Permitted demoPC 5 failCall failS ∧ pexec demoPC 5 failCall failS = (.error .enospc, failS') ∧
    (failS'.handle 2).off ≠ (failS.handle 2).off :=
  ⟨failS_reach, demoP (by simp) (by decide) _, pexec_eta (isError_eq fail_values.1), by rw [fail_values.2.1, fail_values.2.2]; simp⟩

end RedFs.Props.PosixFail
