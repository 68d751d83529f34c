import Verif.Lemmas.PosixExec
import Verif.Lemmas.PosixWalk
import Verif.Spec.PosixOwn
set_option linter.unusedSimpArgs false
set_option linter.unusedVariables false
/-!
A call does not depend on volumes it is not about.
-/
namespace RedFs.Posix
open RedFs M Str

variable {pc : PConf} {i : Nat} {α β : Type} {s s' : PSt} {t : Nat}

/-- From the state `s`, `m` does the same whatever volume `i` is, and leaves it. -/
def Blind (i : Nat) (m : PM α) (s : PSt) : Prop := ∀ w, m (s.withVol i w) = ((m s).1, (m s).2.withVol i w)

/-- So it does from all states in which volume `i` is not the current one, and it does not make it the current one. -/
def NI (i : Nat) (m : PM α) : Prop := ∀ s, s.cur ≠ i → Blind i m s ∧ (m s).2.cur ≠ i

theorem Blind.bind {m : PM α} {f : α → PM β} (h : Blind i m s) (hf : ∀ a s1, m s = (.ok a, s1) → Blind i (f a) s1) : Blind i (m >>= f) s := fun w => by
  rw [run_bind, run_bind, h w]
  rcases hm : m s with ⟨e | a, s1⟩
  · rfl
  · exact hf a s1 hm w
theorem Blind.pure (a : α) : Blind i (pure a : PM α) s := fun _ => rfl
theorem Blind.fail (e : Err) : Blind i (fail e : PM α) s := fun _ => rfl
theorem Blind.attempt {m : PM α} (h : Blind i m s) : Blind i (attempt m) s := fun w => by rw [run_attempt, run_attempt, h w]
theorem Blind.get {f : PSt → PM β} (h1 : ∀ w, f (s.withVol i w) = f s) (h2 : Blind i (f s) s) : Blind i (get >>= f) s := fun w => by
  rw [run_bind, run_bind]
  show f (s.withVol i w) (s.withVol i w) = _
  rw [h1]
  exact h2 w
theorem Blind.modify {f : PSt → PSt} (h : ∀ w, f (s.withVol i w) = (f s).withVol i w) : Blind i (modify f) s := fun w => by
  rw [run_modify, run_modify, h]
theorem Blind.setCur (j : Nat) : Blind i (setCur pc j) s := by
  unfold Posix.setCur
  split
  · exact .fail _
  · exact .modify fun _ => rfl
theorem Blind.prefixLookup (path : List Byte) : Blind i (prefixLookup pc path) s := by
  unfold Posix.prefixLookup
  cases prefixVol pc path with
  | none => exact .fail _
  | some j => exact .bind (.setCur _) fun _ _ _ => .pure _
theorem Blind.volumeLookup (path : List Byte) : Blind i (volumeLookup pc path) s := by
  unfold Posix.volumeLookup
  refine .bind (.prefixLookup _) fun j s1 _ => .get (fun _ => rfl) ?_
  dsimp only
  split
  · exact .fail _
  · exact .pure _
theorem Blind.cwdSlot : Blind i (cwdSlot pc t) s := by
  unfold Posix.cwdSlot
  split
  · exact .pure _
  · refine .get (fun _ => rfl) ?_
    cases taskIdx pc t s with
    | none => exact .fail _
    | some j => exact .pure _
theorem Blind.startingPoint (path : List Byte) : Blind i (startingPoint pc t path) s := by
  unfold Posix.startingPoint
  refine .bind (.attempt (.prefixLookup _)) fun r s1 _ => .get (fun _ => rfl) ?_
  rcases r with e | j <;> dsimp only <;> split
  · exact .bind .cwdSlot fun j s2 _ => .bind (.setCur _) fun _ _ _ => .pure _
  · exact .fail _
  · exact .bind .cwdSlot fun j s2 _ => .bind (.setCur _) fun _ _ _ => .pure _
  · exact .pure _
theorem Blind.fildesToHandle (fd : Int) (ty : FType) : Blind i (fildesToHandle pc fd ty) s := fun w => by
  unfold Posix.fildesToHandle
  by_cases h1 : fd < fdMin
  · rw [if_pos h1, if_pos h1]
  rw [if_neg h1, if_neg h1]
  have key : ∀ {a b d : Prop} [Decidable a] [Decidable b] [Decidable d] (x : Nat) (s' : PSt),
      (if a then (.error .ebadf, s') else if b then (.error .eisdir, s') else if d then (.error .enotdir, s') else (.ok x, s') : Except Err Nat × PSt) =
        (if a then .error .ebadf else if b then .error .eisdir else if d then .error .enotdir else .ok x, s') := by
    intros; split
    · rfl
    split
    · rfl
    split <;> rfl
  dsimp only
  rw [key, key]
  rfl

theorem NI.bind {m : PM α} {f : α → PM β} (h : NI i m) (hf : ∀ a, NI i (f a)) : NI i (m >>= f) := fun s hs => by
  have h := h s hs
  refine ⟨.bind h.1 fun a s1 e => (hf a s1 (by have := h.2; rw [e] at this; exact this)).1, ?_⟩
  rw [run_bind]
  rcases hm : m s with ⟨e | a, s1⟩
  · have := h.2; rw [hm] at this; exact this
  · exact (hf a s1 (by have := h.2; rw [hm] at this; exact this)).2
theorem NI.pure (a : α) : NI i (pure a : PM α) := fun _ hs => ⟨.pure a, hs⟩
theorem NI.fail (e : Err) : NI i (fail e : PM α) := fun _ hs => ⟨.fail e, hs⟩
theorem NI.attempt {m : PM α} (h : NI i m) : NI i (attempt m) := fun s hs => ⟨.attempt (h s hs).1, (h s hs).2⟩
theorem NI.get {f : PSt → PM β} (h1 : ∀ s w, f (PSt.withVol i w s) = f s) (h2 : ∀ s, NI i (f s)) : NI i (get >>= f) := fun s hs =>
  ⟨.get (h1 s) (h2 s s hs).1, (h2 s s hs).2⟩
theorem NI.modify {f : PSt → PSt} (h : ∀ s w, f (PSt.withVol i w s) = (f s).withVol i w) (hc : ∀ s, (f s).cur = s.cur) : NI i (modify f) := fun s hs =>
  ⟨.modify (h s), by rw [run_modify]; exact (hc s) ▸ hs⟩
theorem NI.ite {p : Prop} [Decidable p] {a b : PM α} (h1 : NI i a) (h2 : NI i b) : NI i (if p then a else b) := by split <;> assumption
theorem NI.onCur (m : Conf → VM α) : NI i (onCur pc m) := fun s hs => by
  refine ⟨fun w => ?_, hs⟩
  have e : (s.withVol i w).vols (s.withVol i w).cur = s.vols s.cur := if_neg hs
  unfold Posix.onCur
  rw [e]
  refine Prod.ext rfl ?_
  show ({ s.withVol i w with vols := _ } : PSt) = _
  unfold PSt.withVol Posix.upd
  dsimp only
  congr 1
  funext j
  by_cases h1 : j = s.cur
  · subst h1; rw [if_pos rfl, if_neg hs, if_pos rfl]
  · rw [if_neg h1]
    by_cases h2 : j = i
    · rw [if_pos h2, if_pos h2]
    · rw [if_neg h2, if_neg h2, if_neg h1]
theorem NI.curVol : NI i curVol := fun s hs => ⟨fun w => (by
  show (Except.ok ((s.withVol i w).vols s.cur), s.withVol i w) = (Except.ok (s.vols s.cur), s.withVol i w)
  rw [show (s.withVol i w).vols s.cur = s.vols s.cur from if_neg hs]), hs⟩
theorem NI.cwdSlot : NI i (cwdSlot pc t) := fun s hs => ⟨.cwdSlot, by
  unfold Posix.cwdSlot
  split
  · exact hs
  · rw [run_bind, run_get]
    dsimp only
    cases taskIdx pc t s <;> exact hs⟩
theorem NI.modeTypeCheck (m : Nat) (ty : FType) : NI i (modeTypeCheck m ty) := by
  unfold Posix.modeTypeCheck
  exact .ite (.fail _) (.ite (.fail _) (.pure _))

theorem reset_withVol (j : Nat) (w : Vol) (s : PSt) : cwdResetVol pc j (s.withVol i w) = (cwdResetVol pc j s).withVol i w := by
  unfold cwdResetVol
  split <;> rfl
theorem reset_cur (j : Nat) (s : PSt) : (cwdResetVol pc j s).cur = s.cur := by
  unfold cwdResetVol
  split <;> rfl

syntax "ni1" : tactic
macro_rules | `(tactic| ni1) => `(tactic| with_reducible exact NI.pure _)
macro_rules | `(tactic| ni1) => `(tactic| with_reducible exact NI.fail _)
macro_rules | `(tactic| ni1) => `(tactic| with_reducible exact NI.onCur _)
macro_rules | `(tactic| ni1) => `(tactic| with_reducible exact NI.curVol)
macro_rules | `(tactic| ni1) => `(tactic| with_reducible exact NI.cwdSlot)
macro_rules | `(tactic| ni1) => `(tactic| with_reducible exact NI.modeTypeCheck _ _)
macro_rules | `(tactic| ni1) => `(tactic| ((with_reducible refine NI.modify ?_ ?_) <;> first | (intros; rfl) | (intros; exact reset_withVol _ _ _) | (intros; exact reset_cur _ _)))
macro "ni" : tactic => `(tactic| repeat' (first | ni1 | (with_reducible refine NI.get (fun _ _ => rfl) fun _ => ?_) | (with_reducible refine NI.bind ?_ fun _ => ?_) | (with_reducible refine NI.attempt ?_) | (with_reducible refine NI.ite ?_ ?_) | split))

theorem NI.inodeUnlinkCheck (ino : Nat) : NI i (inodeUnlinkCheck pc ino) := by unfold Posix.inodeUnlinkCheck; ni
theorem NI.transactIf (ev : Event) : NI i (transactIf pc ev) := by unfold Posix.transactIf; ni

/-- Of a path that leads to another volume. -/
theorem Blind.path (hc : pc.Ok) (hi : PInv pc s) (hin : s.inited = true) {k : Nat} (ht : SlotOf pc t s k) {path : List Byte} (hs : CStr.Ok path)
    (hne : ∀ start l, ¬ StartAt pc s t path (.ok (i, start, l))) {f : Nat × Nat × List Byte → PM β} (hf : ∀ x, NI i (f x)) : Blind i (Posix.startingPoint pc t path >>= f) s := by
  obtain ⟨r, s1, e, _, _, hS, hcur⟩ := startingPoint_spec hc hi hin ht hs
  refine .bind (.startingPoint _) fun x s2 e2 => (hf x s2 ?_).1
  rw [e] at e2
  simp only [Prod.mk.injEq] at e2
  obtain ⟨rfl, rfl⟩ := e2
  obtain ⟨vol, start, l⟩ := x
  rw [hcur vol start l rfl]
  rintro rfl
  exact hne _ _ hS

/-- Of two paths, not both of which lead to volume `i`. -/
theorem Blind.paths (hc : pc.Ok) (hi : PInv pc s) (hin : s.inited = true) {k : Nat} (ht : SlotOf pc t s k) {p p' : List Byte} (hs : CStr.Ok p) (hs' : CStr.Ok p')
    (hne : ∀ a l b l', StartAt pc s t p (.ok (i, a, l)) → ¬ StartAt pc s t p' (.ok (i, b, l'))) {f : Nat × Nat × List Byte → Nat × Nat × List Byte → PM β}
    (hx : ∀ x y, x.1 ≠ y.1 → f x y = M.fail .exdev) (hf : ∀ x y, NI i (f x y)) :
    Blind i (do let x ← Posix.startingPoint pc t p; let y ← Posix.startingPoint pc t p'; f x y) s := by
  obtain ⟨r, s1, e, q, _, hS, hcur⟩ := startingPoint_spec hc hi hin ht hs
  refine .bind (.startingPoint _) fun x s2 e2 => ?_
  rw [e] at e2
  simp only [Prod.mk.injEq] at e2
  obtain ⟨rfl, rfl⟩ := e2
  have ht1 : SlotOf pc t s1 k := by unfold SlotOf; rw [q.slot]; exact ht
  obtain ⟨r', s3, e', q', _, hS', hcur'⟩ := startingPoint_spec hc (hi.quiet q) (q.inited.trans hin) ht1 hs'
  refine .bind (.startingPoint _) fun y s4 e4 => ?_
  rw [e'] at e4
  simp only [Prod.mk.injEq] at e4
  obtain ⟨rfl, rfl⟩ := e4
  by_cases hxy : x.1 = y.1
  · refine (hf x y s3 ?_).1
    obtain ⟨vol, start, l⟩ := x
    obtain ⟨vol', start', l'⟩ := y
    dsimp only at hxy
    rw [hcur' vol' start' l' rfl]
    rintro rfl
    subst hxy
    exact hne _ _ _ _ hS (StartAt.congr q.slot.symm hS')
  · rw [hx x y hxy]; exact .fail _

/-- Of a name that is not that of volume `i`. -/
theorem Blind.named (hc : pc.Ok) {path : List Byte} (hs : CStr.Ok path) (hne : ¬ VolName pc path i) {f : Nat → PM β} (hf : ∀ x, NI i (f x)) :
    Blind i (Posix.volumeLookup pc path >>= f) s := by
  refine .bind (.volumeLookup _) fun j s2 e2 => (hf j s2 ?_).1
  rcases volumeLookup_spec hc hs s with ⟨s1, e, _⟩ | ⟨j', e, hj⟩
  · rw [e] at e2; cases e2
  · rw [e] at e2
    simp only [Prod.mk.injEq] at e2
    obtain ⟨_, rfl⟩ := e2
    rintro rfl
    exact hne hj

/-- Of a descriptor of another volume. -/
theorem toHandle_is (hc : pc.Ok) (hi : PInv pc s) (hin : s.inited = true) {fd : Int} (hfd : Int32 fd) {ty : FType} {k : Nat} (h : fildesToHandle pc fd ty s = (.ok k, s')) :
    IsFd pc s fd k ∧ s' = s := by
  rcases toHandle_spec hc hi hin hfd ty with ⟨_, e⟩ | ⟨k', h1, _, e⟩
  · rw [e] at h; cases h
  · rw [e] at h
    simp only [Prod.mk.injEq] at h
    refine ⟨?_, h.2.symm⟩
    split at h
    · cases h.1
    split at h
    · cases h.1
    · have := Except.ok.inj h.1
      exact this ▸ h1
theorem Blind.after {j : Nat} (hj : j ≠ i) {f : Unit → PM β} (hf : NI i (f ())) : Blind i (Posix.setCur pc j >>= f) s := by
  refine .bind (.setCur _) fun u s1 e => (hf s1 ?_).1
  unfold Posix.setCur at e
  split at e
  · cases e
  · have := (Prod.mk.inj e).2
    rw [← this]; exact hj

macro_rules | `(tactic| ni1) => `(tactic| with_reducible exact NI.inodeUnlinkCheck _)
macro_rules | `(tactic| ni1) => `(tactic| with_reducible exact NI.transactIf _)

theorem Blind.unit {m : PM Unit} (h : Blind i m s) : Blind i (unit m) s := by
  unfold Posix.unit; exact .bind h fun _ _ _ => .pure _

theorem Registers.fd {s1 : PSt} (R : Registers pc t s s1) {fd : Int} {k : Nat} (h : IsFd pc s1 fd k) : IsFd pc s fd k := by
  cases R <;> exact h
theorem Registers.handle_eq {s1 : PSt} (R : Registers pc t s s1) : s1.handle = s.handle := by cases R <;> rfl

/-- The calls that get a descriptor: `idx` is that of a handle of another volume. -/
theorem Blind.fd (hc : pc.Ok) (hi : PInv pc s) (hin : s.inited = true) {fd : Int} (hfd : Int32 fd) {ty : FType} (hne : ∀ k, IsFd pc s fd k → (s.handle k).vol ≠ i)
    {f : Nat → PM β} (hf : ∀ k, (s.handle k).vol ≠ i → Blind i (f k) s) : Blind i (Posix.fildesToHandle pc fd ty >>= f) s := by
  refine .bind (.fildesToHandle _ _) fun k s1 e => ?_
  obtain ⟨h, rfl⟩ := toHandle_is hc hi hin hfd e
  exact hf k (hne k h)
theorem Blind.fdTry (hc : pc.Ok) (hi : PInv pc s) (hin : s.inited = true) {fd : Int} (hfd : Int32 fd) {ty : FType} (hne : ∀ k, IsFd pc s fd k → (s.handle k).vol ≠ i)
    {f : Except Err Nat → PM β} (he : ∀ e, f (.error e) = M.fail (if e = .eisdir then .ebadf else e)) (hf : ∀ k, (s.handle k).vol ≠ i → Blind i (f (.ok k)) s) :
    Blind i (M.attempt (Posix.fildesToHandle pc fd ty) >>= f) s := by
  refine .bind (.attempt (.fildesToHandle _ _)) fun r s1 e => ?_
  rw [run_attempt] at e
  simp only [Prod.mk.injEq, Except.ok.injEq] at e
  obtain ⟨e1, e2⟩ := e
  rcases r with x | k
  · rw [he]; exact .fail _
  · obtain ⟨h, h2⟩ := toHandle_is (s' := s1) hc hi hin hfd (Prod.ext e1 e2)
    rw [h2]
    exact hf k (hne k h)

theorem blind_close (hc : pc.Ok) (hi : PInv pc s) (hin : s.inited = true) {fd : Int} (hfd : Int32 fd) (hne : ∀ k, IsFd pc s fd k → (s.handle k).vol ≠ i) :
    Blind i (fildesClose pc fd) s := by
  unfold fildesClose
  exact .fd hc hi hin hfd hne fun k hk => .get (fun _ => rfl) (.after hk (by ni))
theorem blind_read (hc : pc.Ok) (hi : PInv pc s) (hin : s.inited = true) {fd : Int} {len : Nat} (hfd : Int32 fd) (hne : ∀ k, IsFd pc s fd k → (s.handle k).vol ≠ i) :
    Blind i (pRead pc fd len) s := by
  unfold pRead
  refine .fd hc hi hin hfd hne fun k hk => .get (fun _ => rfl) ?_
  dsimp only
  split
  · exact .fail _
  · exact .after hk (by ni)
theorem blind_write (hc : pc.Ok) (hi : PInv pc s) (hin : s.inited = true) {fd : Int} {len : Nat} {buf : Nat → Byte} (hfd : Int32 fd) (hne : ∀ k, IsFd pc s fd k → (s.handle k).vol ≠ i) :
    Blind i (pWrite pc fd len buf) s := by
  unfold pWrite
  refine .fdTry hc hi hin hfd hne (fun _ => rfl) fun k hk => .get (fun _ => rfl) ?_
  dsimp only
  split
  · exact .fail _
  · exact .after hk (by ni)
theorem blind_fsync (hc : pc.Ok) (hi : PInv pc s) (hin : s.inited = true) {fd : Int} (hfd : Int32 fd) (hne : ∀ k, IsFd pc s fd k → (s.handle k).vol ≠ i) :
    Blind i (pFsync pc fd) s := by
  unfold pFsync
  exact .fd hc hi hin hfd hne fun k hk => .get (fun _ => rfl) (.after hk (.transactIf _))
theorem blind_lseek (hc : pc.Ok) (hi : PInv pc s) (hin : s.inited = true) {fd off : Int} {wh : Nat} (hfd : Int32 fd) (hne : ∀ k, IsFd pc s fd k → (s.handle k).vol ≠ i) :
    Blind i (pLseek pc fd off wh) s := by
  unfold pLseek
  exact .fd hc hi hin hfd hne fun k hk => .get (fun _ => rfl) (.after hk (by ni))
theorem blind_ftruncate (hc : pc.Ok) (hi : PInv pc s) (hin : s.inited = true) {fd : Int} {size : Nat} (hfd : Int32 fd) (hne : ∀ k, IsFd pc s fd k → (s.handle k).vol ≠ i) :
    Blind i (pFtruncate pc fd size) s := by
  unfold pFtruncate
  refine .fdTry hc hi hin hfd hne (fun _ => rfl) fun k hk => .get (fun _ => rfl) ?_
  split
  · exact .fail _
  · exact .after hk (.onCur _)
theorem blind_fstat (hc : pc.Ok) (hi : PInv pc s) (hin : s.inited = true) {fd : Int} (hfd : Int32 fd) (hne : ∀ k, IsFd pc s fd k → (s.handle k).vol ≠ i) :
    Blind i (pFstat pc fd) s := by
  unfold pFstat
  exact .fd hc hi hin hfd hne fun k hk => .get (fun _ => rfl) (.after hk (.onCur _))
theorem blind_readdir {idx : Nat} (hne : dirStreamIsValid pc idx s = true → (s.handle idx).vol ≠ i) : Blind i (pReaddir pc idx) s := by
  unfold pReaddir
  refine .get (fun _ => rfl) ?_
  dsimp only
  split
  · exact .fail _
  · rename_i h
    exact .after (hne (by simpa using h)) (by ni)
theorem blind_rewind {idx : Nat} : Blind i (pRewinddir pc idx) s := by
  unfold pRewinddir
  refine .get (fun _ => rfl) ?_
  split
  · exact .modify fun _ => rfl
  · exact .pure _
theorem blind_closedir {idx : Nat} : Blind i (pClosedir pc idx) s := by
  unfold pClosedir
  refine .get (fun _ => rfl) ?_
  split
  · exact .modify fun _ => rfl
  · exact .fail _

theorem blind_open (hc : pc.Ok) (hi : PInv pc s) (hin : s.inited = true) {k : Nat} (ht : SlotOf pc t s k) {path : List Byte} (hs : CStr.Ok path)
    (hne : ∀ start l, ¬ StartAt pc s t path (.ok (i, start, l))) (mode : Nat) (ty : FType) : Blind i (fildesOpen pc t path mode ty) s := by
  unfold fildesOpen
  exact .path hc hi hin ht hs hne fun ⟨_, _, _⟩ => (by ni)
theorem blind_unlink (hc : pc.Ok) (hi : PInv pc s) (hin : s.inited = true) {k : Nat} (ht : SlotOf pc t s k) {path : List Byte} (hs : CStr.Ok path)
    (hne : ∀ start l, ¬ StartAt pc s t path (.ok (i, start, l))) (ty : FType) : Blind i (unlinkSub pc t path ty) s := by
  unfold unlinkSub
  exact .path hc hi hin ht hs hne fun ⟨_, _, _⟩ => (by ni)
theorem blind_mkdir (hc : pc.Ok) (hi : PInv pc s) (hin : s.inited = true) {k : Nat} (ht : SlotOf pc t s k) {path : List Byte} (hs : CStr.Ok path)
    (hne : ∀ start l, ¬ StartAt pc s t path (.ok (i, start, l))) : Blind i (pMkdir pc t path) s := by
  unfold pMkdir
  exact .path hc hi hin ht hs hne fun ⟨_, _, _⟩ => (by ni)
theorem blind_chdir (hc : pc.Ok) (hi : PInv pc s) (hin : s.inited = true) {k : Nat} (ht : SlotOf pc t s k) {path : List Byte} (hs : CStr.Ok path)
    (hne : ∀ start l, ¬ StartAt pc s t path (.ok (i, start, l))) : Blind i (pChdir pc t path) s := by
  unfold pChdir
  exact .path hc hi hin ht hs hne fun ⟨_, _, _⟩ => (by ni)
theorem blind_rename (hc : pc.Ok) (hi : PInv pc s) (hin : s.inited = true) {k : Nat} (ht : SlotOf pc t s k) {p p' : List Byte} (hs : CStr.Ok p) (hs' : CStr.Ok p')
    (hne : ∀ a l b l', StartAt pc s t p (.ok (i, a, l)) → ¬ StartAt pc s t p' (.ok (i, b, l'))) : Blind i (pRename pc t p p') s := by
  unfold pRename
  exact .paths hc hi hin ht hs hs' hne (fun _ _ h => if_pos h) fun ⟨_, _, _⟩ ⟨_, _, _⟩ => (by ni)
theorem blind_link (hc : pc.Ok) (hi : PInv pc s) (hin : s.inited = true) {k : Nat} (ht : SlotOf pc t s k) {p p' : List Byte} (hs : CStr.Ok p) (hs' : CStr.Ok p')
    (hne : ∀ a l b l', StartAt pc s t p (.ok (i, a, l)) → ¬ StartAt pc s t p' (.ok (i, b, l'))) : Blind i (pLink pc t p p') s := by
  unfold pLink
  exact .paths hc hi hin ht hs hs' hne (fun _ _ h => if_pos h) fun ⟨_, _, _⟩ ⟨_, _, _⟩ => (by ni)
theorem blind_getcwd (hne : ∀ j, SlotOf pc t s j → (s.slot j).cwdVol ≠ i) {k : Nat} (ht : SlotOf pc t s k) (size : Nat) : Blind i (pGetcwd pc t size) s := by
  unfold pGetcwd
  refine .bind .cwdSlot fun j s1 e => ?_
  obtain ⟨j', e', hj⟩ := cwdSlot_spec ht
  rw [e'] at e
  simp only [Prod.mk.injEq, Except.ok.injEq] at e
  obtain ⟨rfl, rfl⟩ := e
  exact .get (fun _ => rfl) (.after (hne _ hj) (by ni))
theorem blind_mount (hc : pc.Ok) {path : List Byte} (hs : CStr.Ok path) (hne : ¬ VolName pc path i) (flags : Nat) : Blind i (pMount pc path flags) s := by
  unfold pMount
  exact .named hc hs hne fun _ => (by ni)
theorem blind_umount (hc : pc.Ok) {path : List Byte} (hs : CStr.Ok path) (hne : ¬ VolName pc path i) (flags : Nat) : Blind i (pUmount pc path flags) s := by
  unfold pUmount
  split
  · exact .fail _
  · exact .named hc hs hne fun _ => (by ni)
theorem blind_rollback (hc : pc.Ok) {path : List Byte} (hs : CStr.Ok path) (hne : ¬ VolName pc path i) : Blind i (pRollback pc path) s := by
  unfold pRollback
  exact .named hc hs hne fun _ => (by ni)

theorem Blind.register : Blind i (taskRegister pc t) s := fun w => by
  unfold taskRegister
  split
  · rfl
  show (match taskIdx pc t s with
    | some j => (Except.ok j, s.withVol i w)
    | none => match (List.range pc.tasks).find? fun j => (s.slot j).task == 0 with
      | none => (Except.error Err.eusers, s.withVol i w)
      | some j => (Except.ok j, (s.withVol i w).setSlot j { (s.withVol i w).slot j with task := t })) = _
  cases taskIdx pc t s with
  | some j => rfl
  | none =>
    dsimp only
    cases (List.range pc.tasks).find? fun j => (s.slot j).task == 0 with
    | none => rfl
    | some j => rfl

theorem errno_withVol (e : Err) (w : Vol) (s : PSt) : setErrno pc t e (s.withVol i w) = (setErrno pc t e s).withVol i w := by
  unfold setErrno
  split
  · rfl
  show (if s.inited = true then _ else _) = _
  split
  · rw [Blind.register (pc := pc) (t := t) (i := i) (s := s) w]
    rcases taskRegister pc t s with ⟨e | j, s1⟩ <;> rfl
  · rfl

/-- Every body of a call that is not about volume `i`. -/
theorem blind_body (hc : pc.Ok) {s0 : PSt} (R : Registers pc t s0 s) (hi : PInv pc s) (hin : s.inited = true) {k0 : Nat} (ht : SlotOf pc t s k0) {k : PCall} (hk : k.Ok)
    (hU : ¬ About pc t s0 k i) : Blind i (body pc t k) s := by
  have fd : ∀ {fd : Int}, ¬ FdOn pc s0 fd i → ∀ k, IsFd pc s fd k → (s.handle k).vol ≠ i := fun h k hk hv => h ⟨k, R.fd hk, by rw [← R.handle_eq]; exact hv⟩
  have path : ∀ {p : List Byte}, ¬ PathOn pc t s0 p i → ∀ start l, ¬ StartAt pc s t p (.ok (i, start, l)) := fun h a b hs => h ⟨s, a, b, R, hs⟩
  have two : ∀ {p p' : List Byte}, ¬ (PathOn pc t s0 p i ∧ PathOn pc t s0 p' i) → ∀ a l b l', StartAt pc s t p (.ok (i, a, l)) → ¬ StartAt pc s t p' (.ok (i, b, l')) :=
    fun h a l b l' h1 h2 => h ⟨⟨s, a, l, R, h1⟩, ⟨s, b, l', R, h2⟩⟩
  have ret : ∀ {α : Type} {m : PM α} {f : α → PReply}, Blind i m s → Blind i (do let a ← m; pure (f a) : PM PReply) s := fun h => .bind h fun _ _ _ => .pure _
  cases k <;> dsimp only [body]
  case init => exact absurd trivial hU
  case uninit => exact absurd trivial hU
  case sync => exact absurd trivial hU
  case mount => exact .unit (blind_mount hc hk hU _)
  case umount => exact .unit (blind_umount hc hk hU _)
  case format => exact .unit (.named hc hk hU fun _ => .onCur _)
  case transact => exact .unit (.named hc hk hU fun _ => .onCur _)
  case rollback => exact .unit (blind_rollback hc hk hU)
  case setMask => exact .unit (.named hc hk hU fun _ => .onCur _)
  case getMask => exact .named hc hk hU fun _ => (by ni)
  case statvfs => exact .named hc hk hU fun _ => (by ni)
  case «open» =>
    refine ret ?_
    unfold pOpen
    split
    · exact .fail _
    · exact blind_open hc hi hin ht hk (path hU) _ _
  case unlink => exact .unit (blind_unlink hc hi hin ht hk (path hU) _)
  case mkdir => exact .unit (blind_mkdir hc hi hin ht hk (path hU))
  case rmdir => exact .unit (blind_unlink hc hi hin ht hk (path hU) _)
  case rename => exact .unit (blind_rename hc hi hin ht hk.1 hk.2 (two hU))
  case link => exact .unit (blind_link hc hi hin ht hk.1 hk.2 (two hU))
  case close => exact .unit (blind_close hc hi hin hk (fd hU))
  case read => exact ret (blind_read hc hi hin hk (fd hU))
  case write => exact ret (blind_write hc hi hin hk (fd hU))
  case fsync => exact .unit (blind_fsync hc hi hin hk (fd hU))
  case lseek => exact ret (blind_lseek hc hi hin hk.1 (fd hU))
  case ftruncate => exact .unit (blind_ftruncate hc hi hin hk (fd hU))
  case fstat => exact ret (blind_fstat hc hi hin hk (fd hU))
  case opendir =>
    refine ret ?_
    unfold pOpendir
    exact .bind (blind_open hc hi hin ht hk (path hU) _ _) fun _ _ _ => .pure _
  case readdir =>
    refine ret (blind_readdir fun hv hvol => hU ?_)
    unfold dirStreamIsValid at hv
    rw [Bool.and_eq_true, Bool.and_eq_true, Bool.and_eq_true] at hv
    rw [R.handle_eq] at hv hvol
    exact ⟨of_decide_eq_true hv.1.1.1, of_decide_eq_true hv.1.1.2, hv.2, hvol⟩
  case rewinddir => exact .unit blind_rewind
  case closedir => exact .unit blind_closedir
  case chdir => exact .unit (blind_chdir hc hi hin ht hk (path hU))
  case getcwd => exact ret (blind_getcwd (fun j hj hv => hU ⟨s, j, R, hj, hv⟩) ht _)

theorem pexec_blind (hc : pc.Ok) (hi : PInv pc s) {k : PCall} (hp : Permitted pc t k s) (hU : ¬ About pc t s k i) (w : Vol) :
    pexec pc t k (s.withVol i w) = ((pexec pc t k s).1, (pexec pc t k s).2.withVol i w) := by
  have hni : k ≠ .init := fun h => by subst h; exact hU trivial
  have hnu : k.isUninit = false := by cases k <;> first | rfl | exact absurd trivial hU
  have e : ∀ s : PSt, pexec pc t k s =
      (let x := (if early k then fail .einval else do posixEnter pc t; body pc t k : PM PReply) s
      match x.1 with
      | .ok a => (.ok a, x.2)
      | .error e => (.error e, if setsErrno k then setErrno pc t e x.2 else x.2)) := by
    intro s
    have : pexec pc t k s = if k.isUninit = true ∧ s.inited = false then (.ok .unit, s) else
      (let x := (if early k then fail .einval else do posixEnter pc t; body pc t k : PM PReply) s
      match x.1 with
      | .ok a => (.ok a, x.2)
      | .error e => (.error e, if setsErrno k then setErrno pc t e x.2 else x.2)) := by
      cases k <;> first | rfl | exact absurd rfl hni
    rw [this, if_neg (by rw [hnu]; simp)]
  have key : Blind i (if early k then fail .einval else do posixEnter pc t; body pc t k : PM PReply) s := by
    split
    · exact .fail _
    unfold posixEnter
    cases hin : s.inited with
    | false =>
      refine .bind (.get (fun _ => rfl) ?_) fun u s1 e1 => ?_
      · rw [hin, if_neg (by simp)]; exact .fail _
      · rw [run_bind, run_get] at e1; dsimp only at e1; rw [hin, if_neg (by simp)] at e1; cases e1
    | true =>
      refine .bind (.get (fun _ => rfl) ?_) fun u s1 e1 => ?_
      · rw [hin, if_pos rfl]; exact .bind .register fun _ _ _ => .pure _
      · rw [run_bind, run_get] at e1; dsimp only at e1; rw [hin, if_pos rfl, run_bind] at e1
        rcases taskRegister_spec pc t s hc.tasks with ⟨_, e2⟩ | ⟨j, s2, e2, R, S⟩
        · rw [e2] at e1; cases e1
        · rw [e2] at e1
          have h2 : s2 = s1 := (Prod.mk.inj e1).2
          subst h2
          obtain ⟨a, _, _⟩ := R.same
          exact blind_body hc R (R.inv hi hp.1) (a.trans hin) S hp.2.1 hU
  rw [e, e]
  dsimp only
  rw [key w]
  rcases (if early k then fail .einval else do posixEnter pc t; body pc t k : PM PReply) s with ⟨e | a, s1⟩
  · dsimp only
    rw [apply_ite (PSt.withVol i w), errno_withVol]
  · rfl

end RedFs.Posix
