import Verif.Spec.CoreErrors
import Verif.Props.Io
set_option linter.unusedSimpArgs false
set_option linter.unusedVariables false
/-!
C66: the errors of the functions of the core, on devices that work and on devices that fail.
-/
namespace RedFs.Props.CoreErrors
open RedFs
open M Vol Io Spec
open RedFs.Props.System

variable {c : Conf} {v v' w : Vol}

/-- The one error that is not documented: a name that is too long is looked up. -/
def LongLookup (c : Conf) (k : Call) (e : Err) : Prop :=
  ∃ p name, k = .lookup p name ∧ e = .enametoolong ∧ c.nameMax < (nameOf c name).length

theorem badLen {nm : List Byte} {e : Err} (h : BadLen c nm e) : e = .einval ∨ e = .enametoolong := by
  rcases h with h | h
  · exact Or.inl h.2
  · exact Or.inr h.2
theorem noEntry {F : Files} {p : Nat} {nm : List Byte} {e : Err} (h : NoEntry c F p nm e) : e = .einval ∨ e = .enametoolong ∨ e = .eexist ∨ e = .enospc := by
  rcases h with (h | h | h) | ⟨_, h | h⟩
  · exact Or.inl h.2
  · exact Or.inr (Or.inl h.2)
  · exact Or.inl h.2.2.2
  · exact Or.inr (Or.inr (Or.inl h.1))
  · exact Or.inr (Or.inr (Or.inr h.1))
theorem notDir {F : Files} {p : Nat} {e : Err} (h : NotDir F p e) : e = .ebadf ∨ e = .enotdir := h.imp And.left And.left
theorem notReg {F : Files} {p : Nat} {e : Err} (h : NotReg F p e) : e = .ebadf ∨ e = .eisdir := h.imp And.left And.left

theorem modify_err {ev : Event} {α : Type} {f : α → Reply} {R : Files → Except Err α → Files → Prop} {s s' : Sys} {tr : List Files} {e : Err}
    (h : Modify ev (Via f R) s (.error e) s' tr) : e = .einval ∨ e = .erofs ∨ ∃ F, R s.now (.error e) F := by
  unfold Modify at h
  split at h
  · cases h.1; exact Or.inl rfl
  split at h
  · cases h.1; exact Or.inr (Or.inl rfl)
  · obtain ⟨pre, F, _, ⟨r0, hr, h⟩, _⟩ := h
    cases r0 with
    | error e' => cases hr; exact Or.inr (Or.inr ⟨F, h⟩)
    | ok a => cases hr
theorem ask_err {α : Type} {f : α → Reply} {Q : Files → Except Err α → Prop} {s s' : Sys} {tr : List Files} {e : Err}
    (h : Ask (ViaQ f Q) s (.error e) s' tr) : e = .einval ∨ Q s.now (.error e) := by
  obtain ⟨_, _, h⟩ := h
  split at h
  · cases h; exact Or.inl rfl
  · obtain ⟨r0, hr, h⟩ := h
    cases r0 with
    | error e' => cases hr; exact Or.inr h
    | ok a => cases hr

/-- What the specification of the calls says about errors. -/
theorem does_err {k : Call} {s s' : Sys} {e : Err} {tr : List Files} (h : Does c k s (.error e) s' tr) :
    (e ∈ coreDocumented c k ∨ LongLookup c k e) ∧ (e = .eio → ∃ ro, k = .mount ro ∧ s.mounted = false ∧ s.disk = none) := by
  cases k with
  | create p name isDir =>
    rcases modify_err h with rfl | rfl | ⟨F, _, h | ⟨_, h | ⟨_, h⟩⟩⟩
    · simp [coreDocumented]
    · simp [coreDocumented]
    · rcases notDir h with rfl | rfl <;> simp [coreDocumented]
    · cases h.1; simp [coreDocumented]
    · rcases noEntry h with rfl | rfl | rfl | rfl <;> simp [coreDocumented]
  | link p name ino =>
    rcases modify_err h with rfl | rfl | ⟨F, _, h | ⟨_, h | h | ⟨_, _, h | ⟨_, h⟩⟩⟩⟩
    · simp [coreDocumented]
    · simp [coreDocumented]
    · rcases notDir h with rfl | rfl <;> simp [coreDocumented]
    · cases h.1; simp [coreDocumented]
    · cases h.1; simp [coreDocumented]
    · cases h.1; simp [coreDocumented]
    · rcases noEntry h with rfl | rfl | rfl | rfl <;> simp [coreDocumented]
  | unlink p name =>
    rcases modify_err h with rfl | rfl | ⟨F, _, h | ⟨_, h | h | ⟨_, _, _, _, h | h⟩⟩⟩
    · simp [coreDocumented]
    · simp [coreDocumented]
    · rcases notDir h with rfl | rfl <;> simp [coreDocumented]
    · rcases badLen h with rfl | rfl <;> simp [coreDocumented]
    · cases h.1; simp [coreDocumented]
    · cases h.1; simp [coreDocumented]
    · cases h.1; simp [coreDocumented]
  | rename p name p' name' =>
    rcases modify_err h with rfl | rfl | ⟨F, _, h⟩
    · simp [coreDocumented]
    · simp [coreDocumented]
    cases h with
    | srcDir h => rcases notDir h with rfl | rfl <;> simp [coreDocumented]
    | dstDir h => rcases notDir h with rfl | rfl <;> simp [coreDocumented]
    | dots h => simp [coreDocumented]
    | dstName h => rcases badLen h with rfl | rfl <;> simp [coreDocumented]
    | srcName h => rcases badLen h with rfl | rfl <;> simp [coreDocumented]
    | enoent h => simp [coreDocumented]
    | eexist => simp [coreDocumented]
    | enotdir => simp [coreDocumented]
    | eisdir => simp [coreDocumented]
    | enotempty => simp [coreDocumented]
    | cyclic => simp [coreDocumented]
    | full => simp [coreDocumented]
    | enospc => simp [coreDocumented]
  | write ino start len buf =>
    rcases modify_err h with rfl | rfl | ⟨F, _, h | ⟨_, _, h⟩⟩
    · simp [coreDocumented]
    · simp [coreDocumented]
    · rcases notReg h with rfl | rfl <;> simp [coreDocumented]
    · split at h
      · cases h; simp [coreDocumented]
      · cases h.1; simp [coreDocumented]
  | truncate ino size =>
    rcases modify_err h with rfl | rfl | ⟨F, _, h | ⟨_, _, h⟩⟩
    · simp [coreDocumented]
    · simp [coreDocumented]
    · rcases notReg h with rfl | rfl <;> simp [coreDocumented]
    · split at h <;> (cases h; simp [coreDocumented])
  | lookup p name =>
    rcases ask_err h with rfl | h | ⟨_, (h | h) | h⟩
    · simp [coreDocumented]
    · rcases notDir h with rfl | rfl <;> simp [coreDocumented]
    · cases h.2; simp [coreDocumented]
    · cases h.2; exact ⟨Or.inr ⟨_, _, rfl, rfl, h.1⟩, fun h => by cases h⟩
    · cases h.2.2.1; simp [coreDocumented]
  | dirRead p pos =>
    rcases ask_err h with rfl | h
    · simp [coreDocumented]
    · rcases notDir h with rfl | rfl <;> simp [coreDocumented]
  | dirParent p =>
    rcases ask_err h with rfl | h
    · simp [coreDocumented]
    · rcases notDir h with rfl | rfl <;> simp [coreDocumented]
  | read ino start len =>
    rcases ask_err h with rfl | h
    · simp [coreDocumented]
    · rcases notReg h with rfl | rfl <;> simp [coreDocumented]
  | stat ino =>
    rcases ask_err h with rfl | h
    · simp [coreDocumented]
    · cases h.1; simp [coreDocumented]
  | fileSize ino =>
    rcases ask_err h with rfl | h
    · simp [coreDocumented]
    · rcases notReg h with rfl | rfl <;> simp [coreDocumented]
  | statfs =>
    rcases ask_err h with rfl | h
    · simp [coreDocumented]
    · exact h.elim
  | maskGet =>
    obtain ⟨_, _, h⟩ := h
    split at h
    · cases h; simp [coreDocumented]
    · cases h
  | maskSet mask =>
    have h := h.2
    split at h
    · cases h.1; simp [coreDocumented]
    split at h
    · cases h.1; simp [coreDocumented]
    · cases h.1
  | transact =>
    dsimp only [Does] at h
    split at h
    · cases h.1; simp [coreDocumented]
    split at h
    · cases h.1; simp [coreDocumented]
    · cases h.1
  | rollback =>
    have h := h.2
    split at h
    · cases h.1; simp [coreDocumented]
    split at h
    · cases h.1; simp [coreDocumented]
    · cases h.1
  | mount ro =>
    have h := h.2
    split at h
    · have h := h.2
      split at h
      · next hp => cases h; simp [coreDocumented, hp]
      · cases h
    · next hm =>
      split at h
      · next hd => cases h.1; exact ⟨Or.inl (by simp [coreDocumented]), fun _ => ⟨ro, rfl, by simpa using hm, hd⟩⟩
      · cases h.1
  | unmount =>
    dsimp only [Does] at h
    split at h
    · have h := h.2.2
      split at h
      · next hp => cases h; simp [coreDocumented, hp]
      · cases h
    · cases h.1

/-- **C66** On a device that works, every call that fails fails with an error that its documentation lists - with one exception, for a name that is
too long - and `EIO` is returned only if a volume that is not mounted is to be mounted. -/
theorem C66_documented (hc : c.SysOk) (h : Reach c v) {k : Call} (hk : k.Ok c) {e : Err} (he : exec c k v = (.error e, v')) :
    (e ∈ coreDocumented c k ∨ LongLookup c k e) ∧ (e = .eio → ∃ ro, k = .mount ro ∧ v.mounted = false) := by
  obtain ⟨v0, t, hb, hr⟩ := h
  obtain ⟨s, _, ha⟩ := hr.refines hc hb.abs
  obtain ⟨r, u, s', tr, he', D, _⟩ := exec_sim hc ha hk
  rw [he] at he'; cases he'
  obtain ⟨d1, d2⟩ := does_err D
  refine ⟨d1, fun h => ?_⟩
  obtain ⟨ro, h1, h2, _⟩ := d2 h
  exact ⟨ro, h1, by rw [← h2, ha.mounted_iff]⟩

/-- **C66** If operations of the device fail, in whichever places, also within commits, the error of a call on a mounted volume is `EIO`, or one of those. -/
theorem C66_device (hc : c.SysOk) (h : Reach c v) (hm : v.mounted = true) {k : Call} (hk : k.Ok c) (hr : Roomy c k v) (d : Dev) {e : Err}
    (he : execIo c d k v = (.error e, v')) : e = .eio ∨ e ∈ coreDocumented c k ∨ LongLookup c k e := by
  have key : ∀ {u}, exec c k v = (.error e, u) → e ∈ coreDocumented c k ∨ LongLookup c k e := fun g => (C66_documented hc h hk g).1
  rcases exec_io hc (Reach.up hc h hm) hk (d := d) hr with g | ⟨e', v1, g, H⟩
  · rw [he] at g
    rcases Fault.C53_fails hc h hm hk g.symm with g | ⟨g, _⟩
    · exact Or.inr (key g.symm)
    · cases g; exact Or.inl rfl
  · rw [he] at g; cases g
    rcases H.err with rfl | g
    · exact Or.inl rfl
    · exact Or.inr (key (Prod.ext g rfl))

/-- **C66** So it is in every history, with any failures of the device, power losses, formats and restarts, for all calls except those that look at
the files of a volume on which the device has failed. -/
theorem C66_every_history (hc : c.SysOk) {v0 : Vol} {t : List Ev} {f : Bool} (hb : Blank c v0) (h : RunIo c v0 t v f) {k : Call} {e : Err}
    (hin : Ev.call k (.error e) ∈ t) (hk : ¬ Inquires k) : e = .eio ∨ e ∈ coreDocumented c k := by
  obtain ⟨s, h1, hs⟩ := h.refines hc hb.abs
  have long : ¬ LongLookup c k e := fun ⟨_, _, g, _⟩ => hk (by rw [g]; trivial)
  clear h hs
  induction h1 with
  | nil => cases hin
  | call _ D ih =>
    rcases List.mem_append.1 hin with hin | hin
    · exact ih hin
    obtain ⟨rfl, rfl⟩ : k = _ ∧ Except.error e = _ := by simpa using hin
    cases D with
    | works D => exact Or.inr ((does_err D).1.resolve_right long)
    | fails _ g =>
      rcases g with rfl | ⟨_, _, D⟩
      · exact Or.inl rfl
      · exact Or.inr ((does_err D).1.resolve_right long)
    | tears => exact Or.inl rfl
    | mountFails => exact Or.inl rfl
    | refuses _ ha => cases k <;> first | exact ha.elim | (right; simp [coreDocumented])
    | answers g => exact absurd g hk
    | reads g => exact absurd g hk
    | handles _ D => exact Or.inr ((does_err D).1.resolve_right long)
  | crash _ _ ih => rcases List.mem_append.1 hin with hin | hin
                    · exact ih hin
                    · simp at hin
  | idleCrash _ _ _ ih => rcases List.mem_append.1 hin with hin | hin
                          · exact ih hin
                          · simp at hin
  | format _ _ _ ih => rcases List.mem_append.1 hin with hin | hin
                       · exact ih hin
                       · simp at hin
  | busy _ _ ih => rcases List.mem_append.1 hin with hin | hin
                   · exact ih hin
                   · simp at hin
  | init _ _ _ ih => rcases List.mem_append.1 hin with hin | hin
                     · exact ih hin
                     · simp at hin
  | formatCrash _ _ _ _ ih => rcases List.mem_append.1 hin with hin | hin
                              · exact ih hin
                              · simp at hin

/-- **C66** No call reports that the driver is broken or that something is not supported, and none goes on forever. -/
theorem C66_never (hc : c.SysOk) (h : Reach c v) (hm : v.mounted = true) {k : Call} (hk : k.Ok c) (hr : Roomy c k v) (d : Dev) {e : Err}
    (he : execIo c d k v = (.error e, v')) : e ≠ .hang ∧ e ≠ .efubar ∧ e ≠ .enosys ∧ e ≠ .enomem ∧ e ≠ .enodata := by
  rcases C66_device hc h hm hk hr d he with rfl | h | ⟨_, _, _, rfl, _⟩
  · simp
  · cases k <;> simp only [coreDocumented] at h <;> (try split at h) <;> (simp only [List.mem_cons, List.mem_nil_iff, or_false] at h) <;> grind
  · simp

/-! ### Examples -/

/-- A name of the greatest length, and one more. -/
def longName : List Byte := List.replicate (demoConf.nameMax + 1) 97#8
/-- The calls, and the errors that they return. -/
def errCalls : List (Call × Err) :=
  [(.lookup 2 longName, .enametoolong), (.create 2 nmA true, .eexist), (.rename 2 nmA 2 [], .einval), (.read 99 0 1, .ebadf), (.mount false, .ebusy)]

def isErr (r : Except Err Reply) (e : Err) : Bool := match r with | .error e' => e' == e | .ok _ => false
theorem isErr_eq {r : Except Err Reply} {e : Err} (h : isErr r e = true) : r = .error e := by
  cases r with
  | ok a => cases h
  | error e' => exact congrArg _ (of_decide_eq_true h)

theorem err_ok : ∀ x ∈ errCalls, x.1.Ok demoConf := by
  intro x hx
  simp only [errCalls, List.mem_cons, List.mem_nil_iff, or_false] at hx
  rcases hx with rfl | rfl | rfl | rfl | rfl
  · exact ⟨rfl, by decide⟩
  · exact ⟨rfl, by decide⟩
  · exact ⟨rfl, by decide, by decide⟩
  · trivial
  · trivial
theorem err_calls : (errCalls.all fun x => isErr (exec demoConf x.1 demoVol).1 x.2) = true := by decide +kernel

/-- An error, and the volume that is left. -/
theorem isErr_run {p : Except Err Reply × Vol} {e : Err} (h : isErr p.1 e = true) : ∃ u, p = (.error e, u) := ⟨p.2, Prod.ext (isErr_eq h) rfl⟩
theorem err_run (x : Call × Err) (hx : x ∈ errCalls) : ∃ u, exec demoConf x.1 demoVol = (.error x.2, u) := isErr_run (List.all_eq_true.1 err_calls x hx)

/-- `C66_documented`: these calls fail in a volume that can be reached. -/
example : demoConf.SysOk ∧ Reach demoConf demoVol ∧ ∀ x ∈ errCalls, x.1.Ok demoConf ∧ ∃ u, exec demoConf x.1 demoVol = (.error x.2, u) :=
  ⟨demo_sys, demo_reach, fun x hx => ⟨err_ok x hx, err_run x hx⟩⟩

/-- **C66** The documentation of `RedCoreLookup` is not complete: a call can return an error that it does not list. -/
theorem C66_undocumented : ∃ k e, Reach demoConf demoVol ∧ k.Ok demoConf ∧ (∃ u, exec demoConf k demoVol = (.error e, u)) ∧ e ∉ coreDocumented demoConf k := by
  have hx : (Call.lookup 2 longName, Err.enametoolong) ∈ errCalls := List.mem_cons_self ..
  have h1 := err_ok _ hx
  have h2 := err_run _ hx
  dsimp only at h1 h2
  exact ⟨_, _, demo_reach, h1, h2, by simp [coreDocumented]⟩

/-- **C66** Renaming to the empty name fails with `EINVAL`; the documentation of `RedCoreRename` says that it is `ENOENT`. -/
theorem C66_empty_name : Reach demoConf demoVol ∧ (Call.rename 2 nmA 2 []).Ok demoConf ∧ ∃ u, exec demoConf (.rename 2 nmA 2 []) demoVol = (.error .einval, u) := by
  have hx : (Call.rename 2 nmA 2 [], Err.einval) ∈ errCalls := List.mem_cons_of_mem _ (List.mem_cons_of_mem _ (List.mem_cons_self ..))
  have h1 := err_ok _ hx
  have h2 := err_run _ hx
  exact ⟨demo_reach, h1, h2⟩

theorem dev_eio : isErr (execIo demoConf (Props.Io.failAt 3) Props.Io.hitCall demoVol).1 .eio = true := by decide +kernel
/-- `C66_device`, `C66_never`: the device fails in a write. -/
example : demoConf.SysOk ∧ Reach demoConf demoVol ∧ demoVol.mounted = true ∧ Props.Io.hitCall.Ok demoConf ∧ Roomy demoConf Props.Io.hitCall demoVol ∧
    ∃ u, execIo demoConf (Props.Io.failAt 3) Props.Io.hitCall demoVol = (.error .eio, u) :=
  ⟨demo_sys, demo_reach, demo_mounted, trivial, trivial, isErr_run dev_eio⟩

/-- A call in which a volume cannot be mounted. -/
def mountEio : Ev → Bool
  | .call (.mount _) r => isErr r .eio
  | _ => false
theorem mountEio_eq {x : Ev} (h : mountEio x = true) : ∃ ro, x = .call (.mount ro) (.error .eio) := by
  cases x with
  | call k r => cases k <;> first | exact ⟨_, by rw [isErr_eq h]⟩ | cases h
  | _ => cases h
theorem any_mem {α : Type} {p : α → Bool} {l : List α} (h : l.any p = true) : ∃ x ∈ l, p x = true := List.any_eq_true.1 h
theorem hit_last : ((Props.Io.runIo demoConf Props.Io.hitCalls (freshVol demoConf)).1.any mountEio) = true := by decide +kernel
theorem hit_history : ∃ t w f ro, RunIo demoConf (bareVol demoConf) t w f ∧ Ev.call (.mount ro) (.error .eio) ∈ t := by
  have h1 := Props.Io.hit_run
  have h2 := any_mem hit_last
  generalize Props.Io.runIo demoConf Props.Io.hitCalls (freshVol demoConf) = y at h1 h2
  obtain ⟨x, hx, h⟩ := h2
  obtain ⟨ro, rfl⟩ := mountEio_eq h
  exact ⟨_, _, _, ro, h1, List.mem_append_right _ hx⟩
/-- `C66_every_history`: a history in which a volume cannot be mounted since the device fails. -/
example : Blank demoConf (bareVol demoConf) ∧ (∃ t w f ro, RunIo demoConf (bareVol demoConf) t w f ∧ Ev.call (.mount ro) (.error .eio) ∈ t) ∧ ∀ ro, ¬ Inquires (.mount ro) :=
  ⟨bare_blank _, hit_history, fun _ => id⟩

end RedFs.Props.CoreErrors
