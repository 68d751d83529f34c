import Verif.Lemmas.PosixExec
import Verif.Spec.Linear
set_option linter.unusedSimpArgs false
set_option linter.unusedVariables false
set_option linter.unusedSectionVars false
/-!
The bodies of the functions of the POSIX API neither read nor write the error codes of the tasks, and do not change which task a slot belongs to.
-/
namespace RedFs.Posix
open M Str Path

theorem withErr_self (s : PSt) : withErr (errOf s) s.gerrno s = s := rfl
theorem withErr_withErr (e e' : Nat → Option Err) (x x' : Option Err) (s : PSt) : withErr e x (withErr e' x' s) = withErr e x s := rfl

/-- The computation does not read or write the error codes, and does not change the tasks of slots or `gfPosixInited`. -/
structure Neutral {α : Type} (m : PM α) : Prop where
  ins : ∀ e x s, m (withErr e x s) = ((m s).1, withErr e x (m s).2)
  inited : ∀ s, (m s).2.inited = s.inited
  task : ∀ s i, ((m s).2.slot i).task = (s.slot i).task

section
variable {α β : Type} {pc : PConf} {t : Nat}

theorem neu_pure (a : α) : Neutral (pure a : PM α) := ⟨fun _ _ _ => rfl, fun _ => rfl, fun _ _ => rfl⟩
theorem neu_fail (e : Err) : Neutral (fail e : PM α) := ⟨fun _ _ _ => rfl, fun _ => rfl, fun _ _ => rfl⟩
theorem neu_ofExcept (r : Except Err α) : Neutral (ofExcept r : PM α) := ⟨fun _ _ _ => rfl, fun _ => rfl, fun _ _ => rfl⟩
theorem neu_curVol : Neutral curVol := ⟨fun _ _ _ => rfl, fun _ => rfl, fun _ _ => rfl⟩
theorem neu_onCur (m : Conf → VM α) : Neutral (onCur pc m) := ⟨fun _ _ _ => rfl, fun _ => rfl, fun _ _ => rfl⟩

theorem neu_bind {m : PM α} {f : α → PM β} (h : Neutral m) (hf : ∀ a, Neutral (f a)) : Neutral (m >>= f) := by
  refine ⟨fun e x s => ?_, fun s => ?_, fun s i => ?_⟩
  · rw [run_bind, run_bind, h.ins e x s]
    rcases hx : m s with ⟨r | a, s'⟩
    · rfl
    · exact (hf a).ins e x s'
  · rw [run_bind]
    have := h.inited s
    rcases hx : m s with ⟨r | a, s'⟩
    · rw [hx] at this; exact this
    · rw [hx] at this; exact ((hf a).inited s').trans this
  · rw [run_bind]
    have := h.task s i
    rcases hx : m s with ⟨r | a, s'⟩
    · rw [hx] at this; exact this
    · rw [hx] at this; exact ((hf a).task s' i).trans this

theorem neu_get {f : PSt → PM β} (h : ∀ e x s, f (withErr e x s) = f s) (hf : ∀ s, Neutral (f s)) : Neutral (get >>= f) := by
  refine ⟨fun e x s => ?_, fun s => (hf s).inited s, fun s i => (hf s).task s i⟩
  show f (withErr e x s) (withErr e x s) = ((f s s).1, withErr e x (f s s).2)
  rw [h, (hf s).ins]

theorem neu_attempt {m : PM α} (h : Neutral m) : Neutral (attempt m) := by
  refine ⟨fun e x s => ?_, fun s => h.inited s, fun s i => h.task s i⟩
  show (Except.ok (m (withErr e x s)).1, (m (withErr e x s)).2) = _
  rw [h.ins]; rfl

theorem neu_modify {f : PSt → PSt} (h : ∀ e x s, f (withErr e x s) = withErr e x (f s)) (h1 : ∀ s, (f s).inited = s.inited) (h2 : ∀ s i, ((f s).slot i).task = (s.slot i).task) : Neutral (modify f) :=
  ⟨fun e x s => by show (Except.ok (), f (withErr e x s)) = (Except.ok (), withErr e x (f s)); rw [h], h1, h2⟩

theorem neu_setCur (i : Nat) : Neutral (setCur pc i) := by
  unfold setCur
  split
  · exact neu_fail _
  · exact neu_modify (fun _ _ _ => rfl) (fun _ => rfl) (fun _ _ => rfl)

theorem neu_setHandle (i : Nat) (h : PSt → Handle) (hh : ∀ e x s, h (withErr e x s) = h s) : Neutral (modify fun s => s.setHandle i (h s)) :=
  neu_modify (fun e x s => by show (withErr e x s).setHandle i _ = _; rw [hh]; rfl) (fun _ => rfl) (fun _ _ => rfl)

theorem neu_modeTypeCheck (mode : Nat) (ty : FType) : Neutral (modeTypeCheck mode ty : PM Unit) := by
  unfold modeTypeCheck
  split
  · exact neu_fail _
  · split
    · exact neu_fail _
    · exact neu_pure _

macro "neu" : tactic => `(tactic| repeat' first
  | with_reducible exact neu_pure _ | with_reducible exact neu_fail _ | with_reducible exact neu_ofExcept _ | with_reducible exact neu_onCur _ | with_reducible exact neu_curVol
  | with_reducible exact neu_setCur _ | with_reducible exact neu_modeTypeCheck _ _
  | with_reducible assumption
  | (with_reducible refine neu_setHandle _ _ ?_); exact fun _ _ _ => rfl
  | (with_reducible refine neu_get ?_ ?_); (exact fun _ _ _ => rfl); intro _
  | (with_reducible refine neu_bind ?_ ?_); rotate_left; intro _; rotate_left
  | with_reducible refine neu_attempt ?_ | split | dsimp only)

theorem neu_prefixLookup (path : List Byte) : Neutral (prefixLookup pc path) := by
  unfold prefixLookup; neu
theorem neu_volumeLookup (path : List Byte) : Neutral (volumeLookup pc path) := by
  have := neu_prefixLookup (pc := pc) path
  unfold volumeLookup; neu
theorem neu_cwdSlot : Neutral (cwdSlot pc t) := by
  unfold cwdSlot; neu
theorem neu_startingPoint (path : List Byte) : Neutral (startingPoint pc t path) := by
  have := neu_prefixLookup (pc := pc) path
  have := neu_cwdSlot (pc := pc) (t := t)
  unfold startingPoint; neu
theorem neu_fildesToHandle (fd : Int) (ty : FType) : Neutral (fildesToHandle pc fd ty) := by
  refine ⟨fun e x s => ?_, fun s => ?_, fun s i => ?_⟩
  · unfold fildesToHandle
    simp only [show (withErr e x s).handle = s.handle from rfl, show (withErr e x s).gen = s.gen from rfl]
    repeat' split
    all_goals rfl
  · unfold fildesToHandle; dsimp only; repeat' split
    all_goals rfl
  · unfold fildesToHandle; dsimp only; repeat' split
    all_goals rfl
theorem neu_inodeUnlinkCheck (ino : Nat) : Neutral (inodeUnlinkCheck pc ino) := by
  unfold inodeUnlinkCheck; neu
theorem neu_unlinkSub (path : List Byte) (ty : FType) : Neutral (unlinkSub pc t path ty) := by
  have := neu_startingPoint (pc := pc) (t := t) path
  unfold unlinkSub; neu
  all_goals exact neu_inodeUnlinkCheck _
theorem neu_fildesOpen (path : List Byte) (mode : Nat) (ty : FType) : Neutral (fildesOpen pc t path mode ty) := by
  have := neu_startingPoint (pc := pc) (t := t) path
  unfold fildesOpen; neu
theorem neu_transactIf (ev : Event) : Neutral (transactIf pc ev) := by
  unfold transactIf; neu
theorem neu_fildesClose (fd : Int) : Neutral (fildesClose pc fd) := by
  have := neu_fildesToHandle (pc := pc) fd .either
  have := neu_transactIf (pc := pc) .close
  unfold fildesClose; neu
theorem neu_unit {m : PM Unit} (h : Neutral m) : Neutral (unit m) := by
  unfold unit; neu
theorem neu_syncLoop (n : Nat) : Neutral (syncLoop pc n) := by
  have := neu_transactIf (pc := pc) .sync
  induction n with
  | zero => exact neu_pure _
  | succ n ih => unfold syncLoop; neu
theorem neu_pMount (path : List Byte) (flags : Nat) : Neutral (pMount pc path flags) := by
  have := neu_volumeLookup (pc := pc) path
  unfold pMount; neu
  exact neu_modify (fun _ _ _ => rfl) (fun _ => rfl) (fun _ _ => rfl)
theorem neu_cwdResetVol (f : PSt → Nat) (hf : ∀ e x s, f (withErr e x s) = f s) : Neutral (modify fun s => cwdResetVol pc (f s) s) := by
  refine neu_modify (fun e x s => ?_) (fun s => ?_) (fun s i => ?_)
  · rw [hf]; unfold cwdResetVol
    split
    · unfold withErr; dsimp only; congr 1; funext i; by_cases h : i < pc.tasks ∧ (s.slot i).cwdVol = f s
      · rw [if_pos h, if_pos h]
      · rw [if_neg h, if_neg h]
    · rfl
  · unfold cwdResetVol; split <;> rfl
  · unfold cwdResetVol; split
    · dsimp only; split <;> rfl
    · rfl
theorem neu_pUmount (path : List Byte) (flags : Nat) : Neutral (pUmount pc path flags) := by
  have := neu_volumeLookup (pc := pc) path
  unfold pUmount; neu
  · exact neu_modify (fun _ _ _ => rfl) (fun _ => rfl) (fun _ _ => rfl)
  · exact neu_cwdResetVol (fun s => s.cur) (fun _ _ _ => rfl)
theorem neu_pRollback (path : List Byte) : Neutral (pRollback pc path) := by
  have := neu_volumeLookup (pc := pc) path
  unfold pRollback; neu
  exact neu_cwdResetVol (fun _ => _) (fun _ _ _ => rfl)
theorem neu_pOpen (path : List Byte) (mode : Nat) : Neutral (pOpen pc t path mode) := by
  unfold pOpen; split
  · exact neu_fail _
  · exact neu_fildesOpen _ _ _
theorem neu_pMkdir (path : List Byte) : Neutral (pMkdir pc t path) := by
  have := neu_startingPoint (pc := pc) (t := t) path
  unfold pMkdir; neu
theorem neu_pRename (old new : List Byte) : Neutral (pRename pc t old new) := by
  have := neu_startingPoint (pc := pc) (t := t) old
  have := neu_startingPoint (pc := pc) (t := t) new
  unfold pRename; neu
  all_goals exact neu_inodeUnlinkCheck _
theorem neu_pLink (old new : List Byte) : Neutral (pLink pc t old new) := by
  have := neu_startingPoint (pc := pc) (t := t) old
  have := neu_startingPoint (pc := pc) (t := t) new
  unfold pLink; neu
theorem neu_pRead (fd : Int) (len : Nat) : Neutral (pRead pc fd len) := by
  have := neu_fildesToHandle (pc := pc) fd .file
  unfold pRead; neu
theorem neu_pWrite (fd : Int) (len : Nat) (buf : Nat → Byte) : Neutral (pWrite pc fd len buf) := by
  have := neu_fildesToHandle (pc := pc) fd .file
  unfold pWrite; neu
theorem neu_pFsync (fd : Int) : Neutral (pFsync pc fd) := by
  have := neu_fildesToHandle (pc := pc) fd .either
  have := neu_transactIf (pc := pc) .fsync
  unfold pFsync; neu
theorem neu_pLseek (fd off : Int) (w : Nat) : Neutral (pLseek pc fd off w) := by
  have := neu_fildesToHandle (pc := pc) fd .file
  unfold pLseek; neu
theorem neu_pFtruncate (fd : Int) (size : Nat) : Neutral (pFtruncate pc fd size) := by
  have := neu_fildesToHandle (pc := pc) fd .file
  unfold pFtruncate; neu
theorem neu_pFstat (fd : Int) : Neutral (pFstat pc fd) := by
  have := neu_fildesToHandle (pc := pc) fd .either
  unfold pFstat; neu
theorem neu_pOpendir (path : List Byte) : Neutral (pOpendir pc t path) := by
  have := neu_fildesOpen (pc := pc) (t := t) path oRdonly .dir
  unfold pOpendir; neu
theorem neu_pReaddir (i : Nat) : Neutral (pReaddir pc i) := by
  unfold pReaddir; neu
theorem neu_pRewinddir (i : Nat) : Neutral (pRewinddir pc i) := by
  unfold pRewinddir; neu
theorem neu_pClosedir (i : Nat) : Neutral (pClosedir pc i) := by
  unfold pClosedir; neu
theorem neu_pChdir (path : List Byte) : Neutral (pChdir pc t path) := by
  have := neu_startingPoint (pc := pc) (t := t) path
  have := neu_cwdSlot (pc := pc) (t := t)
  unfold pChdir; neu
  rename_i j
  refine neu_modify (fun e x s => ?_) (fun _ => rfl) (fun s i => ?_)
  · unfold PSt.setSlot withErr upd; dsimp only; congr 1; funext i
    by_cases h : i = j
    · subst h; simp
    · simp [h]
  · unfold PSt.setSlot upd; dsimp only
    split
    · rename_i h; rw [h]
    · rfl
theorem neu_pGetcwd (size : Nat) : Neutral (pGetcwd pc t size) := by
  have := neu_cwdSlot (pc := pc) (t := t)
  unfold pGetcwd; neu

theorem neu_body {k : PCall} (hk : k ≠ .uninit) : Neutral (body pc t k) := by
  cases k with
  | uninit => exact absurd rfl hk
  | init => exact neu_pure _
  | sync => exact neu_unit (neu_syncLoop _)
  | mount => exact neu_unit (neu_pMount _ _)
  | umount => exact neu_unit (neu_pUmount _ _)
  | format vol => exact neu_unit (neu_bind (neu_volumeLookup _) fun _ => neu_onCur _)
  | transact vol => exact neu_unit (neu_bind (neu_volumeLookup _) fun _ => neu_onCur _)
  | rollback => exact neu_unit (neu_pRollback _)
  | setMask vol => exact neu_unit (neu_bind (neu_volumeLookup _) fun _ => neu_onCur _)
  | getMask vol => exact neu_bind (neu_volumeLookup _) fun _ => neu_bind (neu_onCur _) fun _ => neu_pure _
  | statvfs vol => exact neu_bind (neu_volumeLookup _) fun _ => neu_bind (neu_onCur _) fun _ => neu_pure _
  | «open» => exact neu_bind (neu_pOpen _ _) fun _ => neu_pure _
  | unlink => exact neu_unit (neu_unlinkSub _ _)
  | mkdir => exact neu_unit (neu_pMkdir _)
  | rmdir => exact neu_unit (neu_unlinkSub _ _)
  | rename => exact neu_unit (neu_pRename _ _)
  | link => exact neu_unit (neu_pLink _ _)
  | close => exact neu_unit (neu_fildesClose _)
  | read => exact neu_bind (neu_pRead _ _) fun _ => neu_pure _
  | write => exact neu_bind (neu_pWrite _ _ _) fun _ => neu_pure _
  | fsync => exact neu_unit (neu_pFsync _)
  | lseek => exact neu_bind (neu_pLseek _ _ _) fun _ => neu_pure _
  | ftruncate => exact neu_unit (neu_pFtruncate _ _)
  | fstat => exact neu_bind (neu_pFstat _) fun _ => neu_pure _
  | opendir => exact neu_bind (neu_pOpendir _) fun _ => neu_pure _
  | readdir => exact neu_bind (neu_pReaddir _) fun _ => neu_pure _
  | rewinddir => exact neu_unit (neu_pRewinddir _)
  | closedir => exact neu_unit (neu_pClosedir _)
  | chdir => exact neu_unit (neu_pChdir _)
  | getcwd => exact neu_bind (neu_pGetcwd _) fun _ => neu_pure _

end
end RedFs.Posix
