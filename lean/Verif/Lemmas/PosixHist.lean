import Verif.Lemmas.PosixExec
import Verif.Spec.PosixHist
set_option linter.unusedSimpArgs false
set_option linter.unusedVariables false
set_option linter.unusedSectionVars false
/-!
What calls do to descriptors.
-/
namespace RedFs.Posix
open M Str Path Spec

variable {pc : PConf} {s s' s1 s2 : PSt}

/-- The states differ only in which tasks are registered and in error codes. -/
structure Alike (s s' : PSt) : Prop where
  inited : s'.inited = s.inited
  handle : s'.handle = s.handle
  gen : s'.gen = s.gen
  cur : s'.cur = s.cur
  vols : s'.vols = s.vols
  cwdVol : ∀ i, (s'.slot i).cwdVol = (s.slot i).cwdVol
  cwdIno : ∀ i, (s'.slot i).cwdIno = (s.slot i).cwdIno

theorem Alike.refl (s : PSt) : Alike s s := ⟨rfl, rfl, rfl, rfl, rfl, fun _ => rfl, fun _ => rfl⟩
theorem Alike.trans (h : Alike s s1) (h' : Alike s1 s2) : Alike s s2 :=
  ⟨h'.inited.trans h.inited, h'.handle.trans h.handle, h'.gen.trans h.gen, h'.cur.trans h.cur, h'.vols.trans h.vols,
    fun i => (h'.cwdVol i).trans (h.cwdVol i), fun i => (h'.cwdIno i).trans (h.cwdIno i)⟩

theorem Registers.alike {t : Nat} (h : Registers pc t s s1) : Alike s s1 := by
  cases h with
  | single => exact Alike.refl _
  | old => exact Alike.refl _
  | new h1 hn hl h0 hf =>
    rename_i i
    refine ⟨rfl, rfl, rfl, rfl, rfl, fun k => ?_, fun k => ?_⟩ <;>
    · simp only [PSt.setSlot, upd]; split
      · rename_i e; subst e; rfl
      · rfl

theorem alike_errno (s : PSt) (i : Nat) (e : Option Err) : Alike s (s.setSlot i { s.slot i with errno := e }) := by
  refine ⟨rfl, rfl, rfl, rfl, rfl, fun k => ?_, fun k => ?_⟩ <;>
  · simp only [PSt.setSlot, upd]; split
    · rename_i e; subst e; rfl
    · rfl

theorem SetsErrno.alike {t : Nat} {e : Err} (h : SetsErrno pc t e s s') : Alike s s' := by
  unfold SetsErrno at h
  split at h
  · subst h; exact ⟨rfl, rfl, rfl, rfl, rfl, fun _ => rfl, fun _ => rfl⟩
  · rcases h with ⟨s1, i, R, _, _, h⟩ | ⟨_, h⟩
    · subst h; exact R.alike.trans (alike_errno s1 i _)
    · subst h; exact ⟨rfl, rfl, rfl, rfl, rfl, fun _ => rfl, fun _ => rfl⟩

/-- A task is registered in one way. -/
theorem Registers.uniq {t : Nat} (h : Registers pc t s s1) (h' : Registers pc t s s2) : s1 = s2 := by
  cases h with
  | single e =>
    cases h' with
    | single => rfl
    | old => rfl
    | new h1 => exact absurd e h1
  | old h1 a b =>
    cases h' with
    | single => rfl
    | old => rfl
    | new _ hn => exact absurd b (hn _ a)
  | new h1 hn hl h0 hf =>
    rename_i i
    cases h' with
    | single e => exact absurd e h1
    | old _ a b => exact absurd b (hn _ a)
    | new h1' hn' hl' h0' hf' =>
      rename_i j
      have : i = j := by
        rcases Nat.lt_trichotomy i j with h | h | h
        · exact absurd h0 (hf' i h)
        · exact h
        · exact absurd h0' (hf j h)
      subst this; rfl

theorem not_noSlot {t : Nat} (R : Registers pc t s s1) : ¬ NoSlot pc t s := by
  intro h
  cases R with
  | single e => exact h.1 e
  | old _ a b => exact (h.2 _ a).1 b
  | new _ _ a b => exact (h.2 _ a).2 b

/-- The call does what it should, up to error codes. -/
theorem call_body (hc : pc.Ok) (h : PReach pc s) {t : Nat} {k : PCall} (hp : Permitted pc t k s) (hni : k ≠ .init) (hin : s.inited = true) (hb : ¬ k.Bad) (R : Registers pc t s s1) :
    ∃ s2, BodyDoes pc t k s1 (pexec pc t k s).1 s2 ∧ Alike s2 (pexec pc t k s).2 := by
  have d := (pexec_spec hc (h.inv hc) hp).2
  have d' : ∃ s2, EnterDoes pc t k s (pexec pc t k s).1 s2 ∧
      match (pexec pc t k s).1 with
      | .ok _ => (pexec pc t k s).2 = s2
      | .error e => if setsErrno k then SetsErrno pc t e s2 (pexec pc t k s).2 else (pexec pc t k s).2 = s2 := by
    have hu : ¬ (k.isUninit = true ∧ s.inited = false) := by rw [hin]; simp
    cases k <;> first | exact absurd rfl hni | (simp only [PDoes] at d; rw [if_neg hu] at d; exact d)
  generalize (pexec pc t k s).1 = r at *
  generalize (pexec pc t k s).2 = s' at *
  obtain ⟨s2, e, x⟩ := d'
  refine ⟨s2, ?_, ?_⟩
  · rcases e with ⟨e, _⟩ | ⟨_, e, _⟩ | ⟨_, _, e, _⟩ | ⟨_, _, s1', R', e⟩
    · exact absurd e hb
    · rw [hin] at e; cases e
    · exact absurd e (not_noSlot R)
    · rw [R.uniq R']; exact e
  · cases r with
    | ok a => rw [show s' = s2 from x]; exact Alike.refl _
    | error e =>
      dsimp only at x
      split at x
      · exact x.alike
      · rw [x]; exact Alike.refl _

/-- A call that succeeds (or fails not for a general reason). -/
theorem call_ok (hc : pc.Ok) (h : PReach pc s) {t : Nat} {k : PCall} {a : PReply} (hp : Permitted pc t k s) (hni : k ≠ .init) (hin : s.inited = true)
    (he : pexec pc t k s = (.ok a, s')) : ∃ s1, Registers pc t s s1 ∧ ¬ k.Bad ∧ BodyDoes pc t k s1 (.ok a) s' := by
  have d := (pexec_spec hc (h.inv hc) hp).2
  rw [he] at d
  have d' : ∃ s2, EnterDoes pc t k s (.ok a) s2 ∧ s' = s2 := by
    have hu : ¬ (k.isUninit = true ∧ s.inited = false) := by rw [hin]; simp
    cases k <;> first | exact absurd rfl hni | (simp only [PDoes] at d; rw [if_neg hu] at d; exact d)
  obtain ⟨s2, e, rfl⟩ := d'
  rcases e with ⟨_, e, _⟩ | ⟨_, _, e, _⟩ | ⟨_, _, _, e, _⟩ | ⟨hb, _, s1', R', e⟩
  · cases e
  · cases e
  · cases e
  · exact ⟨s1', R', hb, e⟩

/-! ### Handles -/

/-- The call is about the position in handle `j`. -/
def PCall.Moves (pc : PConf) (s : PSt) (k : PCall) (j : Nat) : Prop :=
  (∃ fd, IsFd pc s fd j ∧ ((∃ len, k = .read fd len) ∨ (∃ len buf, k = .write fd len buf) ∨ ∃ off whence, k = .lseek fd off whence)) ∨ k = .readdir j ∨ k = .rewinddir j

/-- What a call does to the handles. -/
inductive HEffect (pc : PConf) (k : PCall) (s : PSt) (r : Except Err PReply) (s' : PSt) : Prop
  /-- they stay -/
  | same : (∀ j, (s'.handle j).ino = (s.handle j).ino ∧ (s'.handle j).vol = (s.handle j).vol ∧ (s'.handle j).dir = (s.handle j).dir) → s'.gen = s.gen →
      (∀ path mode fd, ¬ (k = .open path mode ∧ r = .ok (.fd fd))) → (∀ path j, ¬ (k = .opendir path ∧ r = .ok (.dir j))) →
      (∀ j, s'.handle j = s.handle j ∨ (k.Moves pc s j ∧ ∃ x, s'.handle j = { s.handle j with off := x })) → HEffect pc k s r s'
  | opened {j : Nat} {h : Handle} : j < pc.handles → (s.handle j).ino = 0 → h.ino ≠ 0 → h.vol < pc.n → s'.handle = upd s.handle j h → s'.gen = s.gen →
      (∃ path mode, k = .open path mode) → r = .ok (.fd (s.fd h.vol j)) → HEffect pc k s r s'
  | openedDir {j : Nat} {h : Handle} : j < pc.handles → (s.handle j).ino = 0 → h.ino ≠ 0 → h.vol < pc.n → s'.handle = upd s.handle j h → s'.gen = s.gen →
      (∃ path, k = .opendir path) → r = .ok (.dir j) → HEffect pc k s r s'
  | closed {j : Nat} {fd : Int} : IsFd pc s fd j → s'.handle = upd s.handle j { s.handle j with ino := 0 } → s'.gen = s.gen →
      (k = .close fd ∨ k = .closedir j) → r = .ok .unit → HEffect pc k s r s'
  | mounted {i : Nat} : (s.vols i).mounted = false → i < pc.n → s'.handle = s.handle → s'.gen = upd s.gen i (nextGen (s.gen i)) →
      (∃ path flags, k = .mount path flags ∧ VolName pc path i) → r = .ok .unit → HEffect pc k s r s'
  | unmounted {i : Nat} : i < pc.n → s'.handle = closeAll pc s i → s'.gen = s.gen → (∃ path flags, k = .umount path flags ∧ VolName pc path i) → r = .ok .unit →
      HEffect pc k s r s'

theorem HEffect.keep {k : PCall} {r : Except Err PReply} (h : s'.handle = s.handle) (g : s'.gen = s.gen)
    (h1 : ∀ path mode fd, ¬ (k = .open path mode ∧ r = .ok (.fd fd))) (h2 : ∀ path j, ¬ (k = .opendir path ∧ r = .ok (.dir j))) : HEffect pc k s r s' :=
  .same (fun j => by rw [h]; exact ⟨rfl, rfl, rfl⟩) g h1 h2 fun j => Or.inl (by rw [h])

theorem HEffect.upd {k : PCall} {r : Except Err PReply} {j x : Nat} (h0 : s'.handle = upd s.handle j { s.handle j with off := x }) (hk : k.Moves pc s j)
    (g : s'.gen = s.gen) (h1 : ∀ path mode fd, ¬ (k = .open path mode ∧ r = .ok (.fd fd))) (h2 : ∀ path j, ¬ (k = .opendir path ∧ r = .ok (.dir j))) : HEffect pc k s r s' :=
  .same (fun i => by
    rw [h0]; unfold Posix.upd; split
    · rename_i e; subst e; exact ⟨rfl, rfl, rfl⟩
    · exact ⟨rfl, rfl, rfl⟩) g h1 h2 fun i => by
    rw [h0]; unfold Posix.upd; split
    · rename_i e; subst e; exact Or.inr ⟨hk, _, rfl⟩
    · exact Or.inl rfl

/-- A successful `FildesOpen`, or one that fails. -/
theorem fildesOpen_handles (hc : pc.Ok) (hi : PInv pc s) {t : Nat} {path : List Byte} {mode : Nat} {type : FType} {r : Except Err Int}
    (h : FildesOpenDoes pc t path mode type s r s') :
    s'.gen = s.gen ∧ ((∃ e, r = .error e ∧ s'.handle = s.handle) ∨
      ∃ vol i dir f, vol < pc.n ∧ (s.vols vol).mounted = true ∧ (s'.vols vol).mounted = true ∧ i ≠ 0 ∧ s'.files pc vol i = some f ∧ dir = decide (f.mode = modeDir) ∧
        Opened pc s vol i mode dir r s') := by
  have fl : ∀ {e}, Fails pc s r s' e → s'.gen = s.gen ∧ ((∃ e, r = .error e ∧ s'.handle = s.handle) ∨
      ∃ vol i dir f, vol < pc.n ∧ (s.vols vol).mounted = true ∧ (s'.vols vol).mounted = true ∧ i ≠ 0 ∧ s'.files pc vol i = some f ∧ dir = decide (f.mode = modeDir) ∧
        Opened pc s vol i mode dir r s') :=
    fun f => ⟨f.2.gen, Or.inl ⟨_, f.1, f.2.handle⟩⟩
  have ne0 : ∀ {vol i f}, vol < pc.n → (s.vols vol).mounted = true → s.files pc vol i = some f → i ≠ 0 := by
    intro vol i f hv hm hf e
    subst e
    have e : s.files pc vol 0 = none := file_ne0 (hc.sys _ hv) (hc.posix _ hv) (hi.reach _ hv) hm
    rw [e] at hf; cases hf
  have ex : ∀ {vol i : Nat}, OpenExisting pc vol i mode type s r s' → s'.gen = s.gen ∧ ((∃ e, r = .error e ∧ s'.handle = s.handle) ∨
      ∃ vol i dir f, vol < pc.n ∧ (s.vols vol).mounted = true ∧ (s'.vols vol).mounted = true ∧ i ≠ 0 ∧ s'.files pc vol i = some f ∧ dir = decide (f.mode = modeDir) ∧
        Opened pc s vol i mode dir r s') := by
    intro vol i h
    rcases h with ⟨_, _, hr, o, hh⟩ | ⟨_, _, hr, o, hh⟩ | ⟨f, hf, _, _, _, o, ho⟩ | ⟨f, r0, hf, _, _, _, o, ho⟩
    · exact ⟨o.gen, Or.inl ⟨_, hr, hh⟩⟩
    · exact ⟨o.gen, Or.inl ⟨_, hr, hh⟩⟩
    · exact ⟨o.gen, Or.inr ⟨vol, i, _, f, o.lt, o.up, o.up', ne0 o.lt o.up hf, by rw [o.rel]; exact hf, rfl, ho⟩⟩
    · refine ⟨o.gen, ?_⟩
      rcases ho with ⟨e, _, hr, hh⟩ | ⟨h0, ho⟩
      · exact Or.inl ⟨_, hr, hh⟩
      · right
        have hrel := o.rel
        unfold Rw at hrel
        split at hrel
        · rw [h0] at hrel; cases hrel.1
        · rw [h0] at hrel
          obtain ⟨f', hf', _, hF⟩ := hrel
          have e : f' = f := by have := hf'.1.symm.trans hf; injection this
          subst e
          refine ⟨vol, i, _, f'.truncate 0, o.lt, o.up, o.up', ne0 o.lt o.up hf, ?_, ?_, ho⟩
          · rw [hF]; simp [Files.set]
          · have : (f'.truncate 0).mode = f'.mode := rfl
            rw [this]
  rcases h with ⟨e, _, f⟩ | ⟨vol, start, l, _, h⟩
  · exact fl f
  by_cases c1 : (s.vols vol).readOnly = true ∧ mode ≠ oRdonly
  · exact fl (h.1 c1)
  have h := h.2 c1
  by_cases c2 : ∀ k, k < pc.handles → (s.handle k).ino ≠ 0
  · exact fl (h.1 c2)
  have h := h.2 c2
  by_cases c3 : has mode oCreat = true
  · rcases h.1 c3 with ⟨e, _, f⟩ | ⟨p, nm, _, ⟨i, o, ho⟩ | ⟨e, hr, _, o, hh⟩ | ⟨i, _, _, h⟩⟩
    · exact fl f
    · refine ⟨o.gen, Or.inr ⟨vol, i, _, _, o.lt, o.up, o.up', ?_, o.rel.2.2.2.2.2.1, ?_, ho⟩⟩
      · intro e; have := o.rel.2.2.1; rw [e] at this; simp [Conf.inodeValid] at this
      · simp [AFile.new, modeReg, modeDir]
    · exact ⟨o.gen, Or.inl ⟨_, hr, hh⟩⟩
    · exact ex h
  · rcases h.2 c3 with ⟨e, _, f⟩ | ⟨i, _, h⟩
    · exact fl f
    · exact ex h

/-- What a call does to the handles. -/
theorem body_handles (hc : pc.Ok) (hi : PInv pc s) (hin : s.inited = true) {t : Nat} {k : PCall} {r : Except Err PReply} (h : BodyDoes pc t k s r s') : HEffect pc k s r s' := by
  cases k with
  | init => exact absurd h id
  | uninit =>
    obtain ⟨r0, rfl, h⟩ := h
    have : s'.handle = s.handle ∧ s'.gen = s.gen := by
      by_cases x : ∃ i, i < pc.n ∧ (s.vols i).mounted = true
      · rw [(h.1 x).2]; exact ⟨rfl, rfl⟩
      · rw [(h.2 x).2]; exact ⟨rfl, rfl⟩
    exact .keep this.1 this.2 (fun _ _ _ h => by cases h.1) (fun _ _ h => by cases h.1)
  | sync => obtain ⟨r0, rfl, h⟩ := h; exact .keep h.2.1.handle h.2.1.gen (fun _ _ _ h => by cases h.1) (fun _ _ h => by cases h.1)
  | mount vol flags =>
    obtain ⟨r0, rfl, h⟩ := h
    rcases h with ⟨_, h⟩ | ⟨i, hv, ⟨_, h⟩ | ⟨_, _, h⟩ | ⟨hm, _, _, _, hh, _, hg⟩⟩
    · exact .keep h.2.handle h.2.gen (fun _ _ _ h => by cases h.1) (fun _ _ h => by cases h.1)
    · exact .keep h.2.handle h.2.gen (fun _ _ _ h => by cases h.1) (fun _ _ h => by cases h.1)
    · exact .keep h.2.handle h.2.gen (fun _ _ _ h => by cases h.1) (fun _ _ h => by cases h.1)
    · cases r0 with
      | error e => exact .keep hh hg (fun _ _ _ h => by cases h.1) (fun _ _ h => by cases h.1)
      | ok a => exact .mounted hm hv.1.1 hh hg ⟨vol, flags, rfl, hv⟩ rfl
  | umount vol flags =>
    obtain ⟨r0, rfl, h⟩ := h
    rcases h with ⟨_, h⟩ | ⟨_, _, h⟩ | ⟨i, hv, _, ⟨_, h⟩ | ⟨_, _, _, h⟩ | ⟨_, _, hr, _, _, hh, _, hg⟩⟩
    · exact .keep h.2.handle h.2.gen (fun _ _ _ h => by cases h.1) (fun _ _ h => by cases h.1)
    · exact .keep h.2.handle h.2.gen (fun _ _ _ h => by cases h.1) (fun _ _ h => by cases h.1)
    · exact .keep h.2.handle h.2.gen (fun _ _ _ h => by cases h.1) (fun _ _ h => by cases h.1)
    · exact .keep h.2.handle h.2.gen (fun _ _ _ h => by cases h.1) (fun _ _ h => by cases h.1)
    · subst hr; exact .unmounted hv.1.1 hh hg ⟨vol, flags, rfl, hv⟩ rfl
  | format vol =>
    obtain ⟨r0, rfl, h⟩ := h
    rcases h with ⟨_, h⟩ | ⟨i, hv, ⟨_, h⟩ | ⟨_, _, _, h, _⟩⟩
    · exact .keep h.2.handle h.2.gen (fun _ _ _ h => by cases h.1) (fun _ _ h => by cases h.1)
    · exact .keep h.2.handle h.2.gen (fun _ _ _ h => by cases h.1) (fun _ _ h => by cases h.1)
    · exact .keep h.handle h.gen (fun _ _ _ h => by cases h.1) (fun _ _ h => by cases h.1)
  | transact vol =>
    obtain ⟨r0, rfl, h⟩ := h
    rcases h with ⟨_, h⟩ | ⟨i, hv, _, h⟩
    · exact .keep h.2.handle h.2.gen (fun _ _ _ h => by cases h.1) (fun _ _ h => by cases h.1)
    · exact .keep h.handle h.gen (fun _ _ _ h => by cases h.1) (fun _ _ h => by cases h.1)
  | rollback vol =>
    obtain ⟨r0, rfl, h⟩ := h
    rcases h with ⟨_, h⟩ | ⟨i, hv, ⟨_, h⟩ | ⟨_, _, _, hh, hg, _⟩⟩
    · exact .keep h.2.handle h.2.gen (fun _ _ _ h => by cases h.1) (fun _ _ h => by cases h.1)
    · exact .keep h.2.handle h.2.gen (fun _ _ _ h => by cases h.1) (fun _ _ h => by cases h.1)
    · exact .keep hh hg (fun _ _ _ h => by cases h.1) (fun _ _ h => by cases h.1)
  | setMask vol mask =>
    obtain ⟨r0, rfl, h⟩ := h
    rcases h with ⟨_, h⟩ | ⟨i, hv, _, h⟩
    · exact .keep h.2.handle h.2.gen (fun _ _ _ h => by cases h.1) (fun _ _ h => by cases h.1)
    · exact .keep h.handle h.gen (fun _ _ _ h => by cases h.1) (fun _ _ h => by cases h.1)
  | getMask vol =>
    obtain ⟨r0, rfl, h⟩ := h
    rcases h with ⟨_, h⟩ | ⟨i, hv, _, h⟩
    · exact .keep h.2.handle h.2.gen (fun _ _ _ h => by cases h.1) (fun _ _ h => by cases h.1)
    · exact .keep h.handle h.gen (fun _ _ _ h => by cases h.1) (fun _ _ h => by cases h.1)
  | statvfs vol =>
    obtain ⟨r0, rfl, h⟩ := h
    rcases h with ⟨_, h⟩ | ⟨i, hv, _, h⟩
    · exact .keep h.2.handle h.2.gen (fun _ _ _ h => by cases h.1) (fun _ _ h => by cases h.1)
    · exact .keep h.handle h.gen (fun _ _ _ h => by cases h.1) (fun _ _ h => by cases h.1)
  | «open» path mode =>
    obtain ⟨r0, rfl, h⟩ := h
    by_cases hm : ModeOk mode
    · obtain ⟨hg, ⟨e, hr, hh⟩ | ⟨vol, i, dir, f, hv, _, _, h0, _, _, j, hj, hz, _, hr, hh⟩⟩ := fildesOpen_handles hc hi (h.1 hm)
      · subst hr; exact .keep hh hg (fun _ _ _ h => by cases h.2) (fun _ _ h => by cases h.1)
      · subst hr; exact .opened hj hz h0 hv hh hg ⟨path, mode, rfl⟩ rfl
    · have f := h.2 hm
      obtain ⟨f1, f2⟩ := f; subst f1
      exact .keep f2.handle f2.gen (fun _ _ _ h => by cases h.2) (fun _ _ h => by cases h.1)
  | unlink path =>
    obtain ⟨r0, rfl, h⟩ := h
    rcases h with ⟨_, _, h⟩ | ⟨_, _, _, _, o, h⟩
    · exact .keep h.2.handle h.2.gen (fun _ _ _ h => by cases h.1) (fun _ _ h => by cases h.1)
    · exact .keep h o.gen (fun _ _ _ h => by cases h.1) (fun _ _ h => by cases h.1)
  | mkdir path =>
    obtain ⟨r0, rfl, h⟩ := h
    rcases h with ⟨_, _, h⟩ | ⟨_, _, _, _, _, _, o, h⟩
    · exact .keep h.2.handle h.2.gen (fun _ _ _ h => by cases h.1) (fun _ _ h => by cases h.1)
    · exact .keep h o.gen (fun _ _ _ h => by cases h.1) (fun _ _ h => by cases h.1)
  | rmdir path =>
    obtain ⟨r0, rfl, h⟩ := h
    rcases h with ⟨_, _, h⟩ | ⟨_, _, _, _, o, h⟩
    · exact .keep h.2.handle h.2.gen (fun _ _ _ h => by cases h.1) (fun _ _ h => by cases h.1)
    · exact .keep h o.gen (fun _ _ _ h => by cases h.1) (fun _ _ h => by cases h.1)
  | rename old new =>
    obtain ⟨r0, rfl, h⟩ := h
    rcases h with ⟨_, _, h⟩ | ⟨_, _, _, _, h⟩ | ⟨_, _, _, _, _, h⟩ | ⟨_, _, _, _, _, _, _, h⟩ | ⟨_, _, _, _, _, _, _, _, h⟩ | ⟨_, _, _, _, _, _, _, ⟨_, _, _, _, h⟩ | ⟨_, _, _, _, h⟩ | ⟨_, o, h⟩⟩
    all_goals first
      | exact .keep h.2.handle h.2.gen (fun _ _ _ h => by cases h.1) (fun _ _ h => by cases h.1)
      | exact .keep h o.gen (fun _ _ _ h => by cases h.1) (fun _ _ h => by cases h.1)
  | link path new =>
    obtain ⟨r0, rfl, h⟩ := h
    rcases h with ⟨_, _, h⟩ | ⟨_, _, _, _, h⟩ | ⟨_, _, _, _, _, h⟩ | ⟨_, _, _, _, _, _, _, h⟩ | ⟨_, _, _, _, _, _, _, _, h⟩ | ⟨_, _, _, _, _, _, o, h⟩
    all_goals first
      | exact .keep h.2.handle h.2.gen (fun _ _ _ h => by cases h.1) (fun _ _ h => by cases h.1)
      | exact .keep h o.gen (fun _ _ _ h => by cases h.1) (fun _ _ h => by cases h.1)
  | close fd =>
    obtain ⟨r0, rfl, h⟩ := h
    rcases h with ⟨_, h⟩ | ⟨j, hj, hr, hh, hf⟩
    · exact .keep h.2.handle h.2.gen (fun _ _ _ h => by cases h.1) (fun _ _ h => by cases h.1)
    · subst hr; exact .closed hj hh hf.1.gen (Or.inl rfl) rfl
  | read fd len =>
    obtain ⟨r0, rfl, h⟩ := h
    rcases h with ⟨_, _, h⟩ | ⟨j, hj, ⟨_, h⟩ | ⟨f, _, _, _, q⟩⟩
    · exact .keep h.2.handle h.2.gen (fun _ _ _ h => by cases h.1) (fun _ _ h => by cases h.1)
    · exact .keep h.2.handle h.2.gen (fun _ _ _ h => by cases h.1) (fun _ _ h => by cases h.1)
    · exact .upd q.handle (Or.inl ⟨fd, hj.1, Or.inl ⟨len, rfl⟩⟩) q.gen (fun _ _ _ h => by cases h.1) (fun _ _ h => by cases h.1)
  | write fd len buf =>
    obtain ⟨r0, rfl, h⟩ := h
    rcases h with ⟨_, h⟩ | ⟨j, hj, ⟨_, h⟩ | ⟨f, pos, _, _, _, o, q⟩⟩
    · exact .keep h.2.handle h.2.gen (fun _ _ _ h => by cases h.1) (fun _ _ h => by cases h.1)
    · exact .keep h.2.handle h.2.gen (fun _ _ _ h => by cases h.1) (fun _ _ h => by cases h.1)
    · exact .upd q (Or.inl ⟨fd, hj.1, Or.inr (Or.inl ⟨len, buf, rfl⟩)⟩) o.gen (fun _ _ _ h => by cases h.1) (fun _ _ h => by cases h.1)
  | fsync fd =>
    obtain ⟨r0, rfl, h⟩ := h
    rcases h with ⟨_, h⟩ | ⟨j, _, ⟨_, _, h⟩ | ⟨_, h, f⟩⟩
    · exact .keep h.2.handle h.2.gen (fun _ _ _ h => by cases h.1) (fun _ _ h => by cases h.1)
    · exact .keep h.2.handle h.2.gen (fun _ _ _ h => by cases h.1) (fun _ _ h => by cases h.1)
    · exact .keep h f.1.gen (fun _ _ _ h => by cases h.1) (fun _ _ h => by cases h.1)
  | lseek fd off whence =>
    obtain ⟨r0, rfl, h⟩ := h
    rcases h with ⟨_, _, h⟩ | ⟨j, f, hj, _, ⟨_, h⟩ | ⟨o, _, h⟩⟩
    · exact .keep h.2.handle h.2.gen (fun _ _ _ h => by cases h.1) (fun _ _ h => by cases h.1)
    · exact .keep h.2.handle h.2.gen (fun _ _ _ h => by cases h.1) (fun _ _ h => by cases h.1)
    · by_cases hx : 0 ≤ o + off ∧ o + off ≤ (pc.conf (s.handle j).vol).sizeMax
      · obtain ⟨n, _, _, q⟩ := h.1 hx
        exact .upd q.handle (Or.inl ⟨fd, hj.1, Or.inr (Or.inr ⟨off, whence, rfl⟩)⟩) q.gen (fun _ _ _ h => by cases h.1) (fun _ _ h => by cases h.1)
      · have h := h.2 hx
        exact .keep h.2.handle h.2.gen (fun _ _ _ h => by cases h.1) (fun _ _ h => by cases h.1)
  | ftruncate fd size =>
    obtain ⟨r0, rfl, h⟩ := h
    rcases h with ⟨_, h⟩ | ⟨j, _, ⟨_, h⟩ | ⟨_, o, h⟩⟩
    · exact .keep h.2.handle h.2.gen (fun _ _ _ h => by cases h.1) (fun _ _ h => by cases h.1)
    · exact .keep h.2.handle h.2.gen (fun _ _ _ h => by cases h.1) (fun _ _ h => by cases h.1)
    · exact .keep h o.gen (fun _ _ _ h => by cases h.1) (fun _ _ h => by cases h.1)
  | fstat fd =>
    obtain ⟨r0, rfl, h⟩ := h
    rcases h with ⟨_, h⟩ | ⟨j, st, _, _, _, q⟩
    · exact .keep h.2.handle h.2.gen (fun _ _ _ h => by cases h.1) (fun _ _ h => by cases h.1)
    · exact .keep q.handle q.gen (fun _ _ _ h => by cases h.1) (fun _ _ h => by cases h.1)
  | opendir path =>
    obtain ⟨r0, rfl, r1, h, hr⟩ := h
    obtain ⟨hg, ⟨e, hr1, hh⟩ | ⟨vol, i, dir, f, hv, _, _, h0, _, _, j, hj, hz, _, hr1, hh⟩⟩ := fildesOpen_handles hc hi h
    · rcases hr with ⟨e', _, hr⟩ | ⟨k, _, hr, _⟩
      · subst hr; exact .keep hh hg (fun _ _ _ h => by cases h.1) (fun _ _ h => by cases h.2)
      · rw [hr1] at hr; cases hr
    · rcases hr with ⟨e', hr, _⟩ | ⟨k, hk, hr, hr0⟩
      · rw [hr1] at hr; cases hr
      · subst hr0
        have hkv : (s'.handle k).vol < pc.n ∨ k = j := by
          by_cases e : k = j
          · exact Or.inr e
          · left
            rw [hr1] at hr; injection hr with hr
            have hr := Int.ofNat.inj hr
            rw [hg] at hr
            have h1 : (s'.handle k).ino ≠ 0 := hk.2.1
            rw [hh] at h1 ⊢; rw [upd_other _ _ e] at h1 ⊢
            exact (hi.handle hin k hk.1 h1).vol
        have : k = j := by
          rcases hkv with hkv | e
          · rw [hr1] at hr; injection hr with hr
            have hr := Int.ofNat.inj hr
            rw [hg] at hr
            have := hc.n; have := hc.handles
            have a1 := hk.1
            have b := fd_parts (g := s.gen vol) (vol := vol) (k := j) (by omega) (by omega) (hi.gen _ hv).1
            have b' := fd_parts (g := s.gen (s'.handle k).vol) (vol := (s'.handle k).vol) (k := k) (by omega) (by omega) (hi.gen _ hkv).1
            rw [hr] at b
            exact b'.1.symm.trans b.1
          · exact e
        subst this
        exact .openedDir hj hz h0 hv hh hg ⟨path, rfl⟩ rfl
  | readdir dir =>
    obtain ⟨r0, rfl, h⟩ := h
    rcases h with ⟨_, h⟩ | ⟨_, pos, e, _, q, _⟩
    · exact .keep h.2.handle h.2.gen (fun _ _ _ h => by cases h.1) (fun _ _ h => by cases h.1)
    · exact .upd q.handle (Or.inr (Or.inl rfl)) q.gen (fun _ _ _ h => by cases h.1) (fun _ _ h => by cases h.1)
  | rewinddir dir =>
    obtain ⟨r0, rfl, hr, h⟩ := h
    by_cases hd : IsDirStream pc s dir
    · rw [h.1 hd]; exact .upd rfl (Or.inr (Or.inr rfl)) rfl (fun _ _ _ h => by cases h.1) (fun _ _ h => by cases h.1)
    · rw [h.2 hd]; exact .keep rfl rfl (fun _ _ _ h => by cases h.1) (fun _ _ h => by cases h.1)
  | closedir dir =>
    obtain ⟨r0, rfl, h⟩ := h
    by_cases hd : IsDirStream pc s dir
    · obtain ⟨hr, hh⟩ := h.1 hd
      subst hr; subst hh
      exact .closed ⟨hd.1, hd.2.1, rfl⟩ rfl rfl (Or.inr rfl) rfl
    · rw [(h.2 hd).2]; exact .keep rfl rfl (fun _ _ _ h => by cases h.1) (fun _ _ h => by cases h.1)
  | chdir path =>
    obtain ⟨r0, rfl, h⟩ := h
    rcases h with ⟨_, _, h⟩ | ⟨_, _, _, ⟨_, h⟩ | ⟨_, _, _, _, q⟩⟩
    · exact .keep h.2.handle h.2.gen (fun _ _ _ h => by cases h.1) (fun _ _ h => by cases h.1)
    · exact .keep h.2.handle h.2.gen (fun _ _ _ h => by cases h.1) (fun _ _ h => by cases h.1)
    · exact .keep q.handle q.gen (fun _ _ _ h => by cases h.1) (fun _ _ h => by cases h.1)
  | getcwd size =>
    obtain ⟨r0, rfl, q, _⟩ := h
    exact .keep q.handle q.gen (fun _ _ _ h => by cases h.1) (fun _ _ h => by cases h.1)

theorem fildesOpen_inited {t : Nat} {path : List Byte} {mode : Nat} {type : FType} {r : Except Err Int} (h : FildesOpenDoes pc t path mode type s r s') : s'.inited = s.inited := by
  have ex : ∀ {vol i : Nat}, OpenExisting pc vol i mode type s r s' → s'.inited = s.inited := by
    intro vol i h
    rcases h with ⟨_, _, hr, o, hh⟩ | ⟨_, _, hr, o, hh⟩ | ⟨f, hf, _, _, _, o, ho⟩ | ⟨f, r0, hf, _, _, _, o, ho⟩ <;> exact o.inited
  rcases h with ⟨e, _, f⟩ | ⟨vol, start, l, _, h⟩
  · exact f.2.inited
  by_cases c1 : (s.vols vol).readOnly = true ∧ mode ≠ oRdonly
  · exact (h.1 c1).2.inited
  have h := h.2 c1
  by_cases c2 : ∀ k, k < pc.handles → (s.handle k).ino ≠ 0
  · exact (h.1 c2).2.inited
  have h := h.2 c2
  by_cases c3 : has mode oCreat = true
  · rcases h.1 c3 with ⟨e, _, f⟩ | ⟨p, nm, _, ⟨i, o, ho⟩ | ⟨e, hr, _, o, hh⟩ | ⟨i, _, _, h⟩⟩
    · exact f.2.inited
    · exact o.inited
    · exact o.inited
    · exact ex h
  · rcases h.2 c3 with ⟨e, _, f⟩ | ⟨i, _, h⟩
    · exact f.2.inited
    · exact ex h

/-- Only `red_uninit` ends it. -/
theorem body_inited {t : Nat} {k : PCall} {r : Except Err PReply} (h : BodyDoes pc t k s r s') :
    s'.inited = s.inited ∨ (k = .uninit ∧ ¬ (∃ i, i < pc.n ∧ (s.vols i).mounted = true) ∧ s' = { s with inited := false }) := by
  cases k with
  | init => exact absurd h id
  | uninit =>
    obtain ⟨r0, rfl, h⟩ := h
    by_cases x : ∃ i, i < pc.n ∧ (s.vols i).mounted = true
    · rw [(h.1 x).2]; exact Or.inl rfl
    · exact Or.inr ⟨rfl, x, (h.2 x).2⟩
  | sync => obtain ⟨r0, rfl, h⟩ := h; exact Or.inl h.2.1.inited
  | mount vol flags =>
    obtain ⟨r0, rfl, h⟩ := h
    rcases h with ⟨_, h⟩ | ⟨i, hv, ⟨_, h⟩ | ⟨_, _, h⟩ | ⟨hm, _, _, h, hh, _, hg⟩⟩ <;> first | exact Or.inl h.2.inited | exact Or.inl h
  | umount vol flags =>
    obtain ⟨r0, rfl, h⟩ := h
    rcases h with ⟨_, h⟩ | ⟨_, _, h⟩ | ⟨i, hv, _, ⟨_, h⟩ | ⟨_, _, _, h⟩ | ⟨_, _, hr, _, h, hh, _, hg⟩⟩ <;> first | exact Or.inl h.2.inited | exact Or.inl h
  | format vol =>
    obtain ⟨r0, rfl, h⟩ := h
    rcases h with ⟨_, h⟩ | ⟨i, hv, ⟨_, h⟩ | ⟨_, _, _, h, _⟩⟩ <;> first | exact Or.inl h.2.inited | exact Or.inl h.inited
  | transact vol =>
    obtain ⟨r0, rfl, h⟩ := h
    rcases h with ⟨_, h⟩ | ⟨i, hv, _, h⟩ <;> first | exact Or.inl h.2.inited | exact Or.inl h.inited
  | rollback vol =>
    obtain ⟨r0, rfl, h⟩ := h
    rcases h with ⟨_, h⟩ | ⟨i, hv, ⟨_, h⟩ | ⟨_, _, h, hh, hg, _⟩⟩ <;> first | exact Or.inl h.2.inited | exact Or.inl h
  | setMask vol mask =>
    obtain ⟨r0, rfl, h⟩ := h
    rcases h with ⟨_, h⟩ | ⟨i, hv, _, h⟩ <;> first | exact Or.inl h.2.inited | exact Or.inl h.inited
  | getMask vol =>
    obtain ⟨r0, rfl, h⟩ := h
    rcases h with ⟨_, h⟩ | ⟨i, hv, _, h⟩ <;> first | exact Or.inl h.2.inited | exact Or.inl h.inited
  | statvfs vol =>
    obtain ⟨r0, rfl, h⟩ := h
    rcases h with ⟨_, h⟩ | ⟨i, hv, _, h⟩ <;> first | exact Or.inl h.2.inited | exact Or.inl h.inited
  | «open» path mode =>
    obtain ⟨r0, rfl, h⟩ := h
    by_cases hm : ModeOk mode
    · exact Or.inl (fildesOpen_inited (h.1 hm))
    · exact Or.inl (h.2 hm).2.inited
  | unlink path =>
    obtain ⟨r0, rfl, h⟩ := h
    rcases h with ⟨_, _, h⟩ | ⟨_, _, _, _, h, _⟩ <;> first | exact Or.inl h.2.inited | exact Or.inl h.inited
  | mkdir path =>
    obtain ⟨r0, rfl, h⟩ := h
    rcases h with ⟨_, _, h⟩ | ⟨_, _, _, _, _, _, h, _⟩ <;> first | exact Or.inl h.2.inited | exact Or.inl h.inited
  | rmdir path =>
    obtain ⟨r0, rfl, h⟩ := h
    rcases h with ⟨_, _, h⟩ | ⟨_, _, _, _, h, _⟩ <;> first | exact Or.inl h.2.inited | exact Or.inl h.inited
  | rename old new =>
    obtain ⟨r0, rfl, h⟩ := h
    rcases h with ⟨_, _, h⟩ | ⟨_, _, _, _, h⟩ | ⟨_, _, _, _, _, h⟩ | ⟨_, _, _, _, _, _, _, h⟩ | ⟨_, _, _, _, _, _, _, _, h⟩ | ⟨_, _, _, _, _, _, _, ⟨_, _, _, _, h⟩ | ⟨_, _, _, _, h⟩ | ⟨_, h, _⟩⟩ <;>
      first | exact Or.inl h.2.inited | exact Or.inl h.inited
  | link path new =>
    obtain ⟨r0, rfl, h⟩ := h
    rcases h with ⟨_, _, h⟩ | ⟨_, _, _, _, h⟩ | ⟨_, _, _, _, _, h⟩ | ⟨_, _, _, _, _, _, _, h⟩ | ⟨_, _, _, _, _, _, _, _, h⟩ | ⟨_, _, _, _, _, _, h, _⟩ <;> first | exact Or.inl h.2.inited | exact Or.inl h.inited
  | close fd =>
    obtain ⟨r0, rfl, h⟩ := h
    rcases h with ⟨_, h⟩ | ⟨j, hj, hr, hh, h⟩
    · exact Or.inl h.2.inited
    · exact Or.inl h.1.inited
  | read fd len =>
    obtain ⟨r0, rfl, h⟩ := h
    rcases h with ⟨_, _, h⟩ | ⟨j, _, ⟨_, h⟩ | ⟨f, _, _, _, h⟩⟩ <;> first | exact Or.inl h.2.inited | exact Or.inl h.inited
  | write fd len buf =>
    obtain ⟨r0, rfl, h⟩ := h
    rcases h with ⟨_, h⟩ | ⟨j, _, ⟨_, h⟩ | ⟨f, pos, _, _, _, h, q⟩⟩ <;> first | exact Or.inl h.2.inited | exact Or.inl h.inited
  | fsync fd =>
    obtain ⟨r0, rfl, h⟩ := h
    rcases h with ⟨_, h⟩ | ⟨j, _, ⟨_, _, h⟩ | ⟨_, _, h⟩⟩ <;> first | exact Or.inl h.2.inited | exact Or.inl h.1.inited
  | lseek fd off whence =>
    obtain ⟨r0, rfl, h⟩ := h
    rcases h with ⟨_, _, h⟩ | ⟨j, f, _, _, ⟨_, h⟩ | ⟨o, _, h⟩⟩
    · exact Or.inl h.2.inited
    · exact Or.inl h.2.inited
    · by_cases hx : 0 ≤ o + off ∧ o + off ≤ (pc.conf (s.handle j).vol).sizeMax
      · obtain ⟨n, _, _, q⟩ := h.1 hx; exact Or.inl q.inited
      · exact Or.inl (h.2 hx).2.inited
  | ftruncate fd size =>
    obtain ⟨r0, rfl, h⟩ := h
    rcases h with ⟨_, h⟩ | ⟨j, _, ⟨_, h⟩ | ⟨_, h, _⟩⟩ <;> first | exact Or.inl h.2.inited | exact Or.inl h.inited
  | fstat fd =>
    obtain ⟨r0, rfl, h⟩ := h
    rcases h with ⟨_, h⟩ | ⟨j, st, _, _, _, h⟩ <;> first | exact Or.inl h.2.inited | exact Or.inl h.inited
  | opendir path => obtain ⟨r0, rfl, r1, h, hr⟩ := h; exact Or.inl (fildesOpen_inited h)
  | readdir dir =>
    obtain ⟨r0, rfl, h⟩ := h
    rcases h with ⟨_, h⟩ | ⟨_, pos, e, _, h, _⟩ <;> first | exact Or.inl h.2.inited | exact Or.inl h.inited
  | rewinddir dir =>
    obtain ⟨r0, rfl, hr, h⟩ := h
    by_cases hd : IsDirStream pc s dir
    · rw [h.1 hd]; exact Or.inl rfl
    · rw [h.2 hd]; exact Or.inl rfl
  | closedir dir =>
    obtain ⟨r0, rfl, h⟩ := h
    by_cases hd : IsDirStream pc s dir
    · rw [(h.1 hd).2]; exact Or.inl rfl
    · rw [(h.2 hd).2]; exact Or.inl rfl
  | chdir path =>
    obtain ⟨r0, rfl, h⟩ := h
    rcases h with ⟨_, _, h⟩ | ⟨_, _, _, ⟨_, h⟩ | ⟨_, _, _, _, h⟩⟩ <;> first | exact Or.inl h.2.inited | exact Or.inl h.inited
  | getcwd size => obtain ⟨r0, rfl, q, _⟩ := h; exact Or.inl q.inited

/-- A call, in any state. -/
theorem step_cases (hc : pc.Ok) (h : PInv pc s) {t : Nat} {k : PCall} (hp : Permitted pc t k s) {r : Except Err PReply} (he : pexec pc t k s = (r, s')) :
    (k = .init ∧ s.inited = false ∧ Initialized pc s s' ∧ r = .ok .unit) ∨
    (Alike s s' ∧ (r = .ok .unit ∨ ∃ e, r = .error e)) ∨
    (s.inited = true ∧ ∃ s1 s2, Registers pc t s s1 ∧ PInv pc s1 ∧ Alike s s1 ∧ BodyDoes pc t k s1 r s2 ∧ Alike s2 s') := by
  have d := (pexec_spec hc h hp).2
  rw [he] at d
  dsimp only at d
  by_cases hk : k = .init
  · subst hk
    obtain ⟨hr, d⟩ := d
    cases hin : s.inited with
    | true => rw [hin, if_pos rfl] at d; right; left; exact ⟨by rw [d]; exact Alike.refl _, Or.inl hr⟩
    | false => rw [hin, if_neg (by simp)] at d; left; exact ⟨rfl, rfl, d, hr⟩
  by_cases hu : k.isUninit = true ∧ s.inited = false
  · have d' : r = .ok .unit ∧ s' = s := by
      cases k <;> first | exact absurd rfl hk | (simp only [PDoes] at d; rw [if_pos hu] at d; exact d)
    right; left; exact ⟨by rw [d'.2]; exact Alike.refl _, Or.inl d'.1⟩
  have d' : ∃ s2, EnterDoes pc t k s r s2 ∧
      match (generalizing := false) r with
      | .ok _ => s' = s2
      | .error e => if setsErrno k then SetsErrno pc t e s2 s' else s' = s2 := by
    cases k <;> first | exact absurd rfl hk | (simp only [PDoes] at d; rw [if_neg hu] at d; exact d)
  obtain ⟨s2, d, x⟩ := d'
  have al : Alike s2 s' := by
    cases r with
    | ok a => rw [show s' = s2 from x]; exact Alike.refl _
    | error e =>
      dsimp only at x
      split at x
      · exact x.alike
      · rw [x]; exact Alike.refl _
  rcases d with ⟨_, hr, e⟩ | ⟨_, _, hr, e⟩ | ⟨_, _, _, hr, e⟩ | ⟨_, hin, s1', R', e⟩
  · right; left; subst e; exact ⟨al, Or.inr ⟨_, hr⟩⟩
  · right; left; subst e; exact ⟨al, Or.inr ⟨_, hr⟩⟩
  · right; left; subst e; exact ⟨al, Or.inr ⟨_, hr⟩⟩
  · right; right; exact ⟨hin, s1', s2, R', R'.inv h hp.1, R'.alike, e, al⟩

theorem isFd_congr {fd : Int} {k : Nat} (hh : (s'.handle k).ino = (s.handle k).ino ∧ (s'.handle k).vol = (s.handle k).vol) (hg : s'.gen (s.handle k).vol = s.gen (s.handle k).vol) :
    IsFd pc s' fd k ↔ IsFd pc s fd k := by
  unfold IsFd PSt.fd
  rw [hh.1, hh.2, hg]

theorem Alike.open_ {fd : Int} {k : Nat} (h : Alike s s') : Open pc s' fd k ↔ Open pc s fd k := by
  unfold Open
  rw [h.inited, isFd_congr (s := s) (by rw [h.handle]; exact ⟨rfl, rfl⟩) (by rw [h.gen])]

end RedFs.Posix
