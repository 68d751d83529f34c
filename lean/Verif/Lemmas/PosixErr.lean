import Verif.Spec.Errors
import Verif.Lemmas.PosixWalk
set_option linter.unusedSimpArgs false
set_option linter.unusedVariables false
set_option linter.unusedSectionVars false
/-!
The errors of the calls.
-/
namespace RedFs
open M Str Path Spec

/-- Only mounting changes whether a volume is read-only. -/
theorem Spec.Does.ro {c : Conf} {k : Call} {s s' : Sys} {r : Except Err Reply} {tr : List Files} (h : Spec.Does c k s r s' tr)
    (hm : s.mounted = true ∨ ∀ ro, k ≠ .mount ro) : s'.ro = s.ro := by
  have mod : ∀ {ev : Event} {R : Files → Except Err Reply → Files → Prop}, Spec.Modify ev R s r s' tr → s'.ro = s.ro := by
    intro ev R h
    unfold Spec.Modify at h
    split at h
    · rw [h.2.1]
    · split at h
      · rw [h.2.1]
      · obtain ⟨pre, F, _, _, _, h⟩ := h
        rw [h]; rfl
  have ask : ∀ {Q : Files → Except Err Reply → Prop}, Spec.Ask Q s r s' tr → s'.ro = s.ro := fun h => by rw [h.1]
  cases k with
  | create => exact mod h
  | link => exact mod h
  | unlink => exact mod h
  | rename => exact mod h
  | write => exact mod h
  | truncate => exact mod h
  | lookup => exact ask h
  | dirRead => exact ask h
  | dirParent => exact ask h
  | read => exact ask h
  | stat => exact ask h
  | fileSize => exact ask h
  | statfs => exact ask h
  | maskGet => exact ask (Q := fun _ r => r = .ok (.num s.mask)) h
  | maskSet mask =>
    obtain ⟨_, h⟩ := h
    split at h
    · rw [h.2]
    · split at h <;> rw [h.2]
  | transact =>
    have h : if _ then _ else _ := h
    split at h
    · rw [h.2.1]
    · split at h
      · rw [h.2.1]
      · rw [h.2.2]
  | rollback =>
    obtain ⟨_, h⟩ := h
    split at h
    · rw [h.2]
    · split at h
      · rw [h.2]
      · obtain ⟨_, F, _, h⟩ := h; rw [h]
  | mount ro =>
    obtain ⟨_, h⟩ := h
    rcases hm with hm | hm
    · rw [if_pos hm] at h; rw [h.1]
    · exact absurd rfl (hm ro)
  | unmount =>
    have h : if _ then _ else _ := h
    split at h
    · rw [h.1]
    · rw [h.2.2]; rfl

theorem exec_ro {c : Conf} {v : Vol} (hc : c.SysOk) (h : Reach c v) (hm : v.mounted = true) {k : Call} (hk : k.Ok c) (hm' : (exec c k v).2.mounted = true) :
    (exec c k v).2.readOnly = v.readOnly := by
  have ha := Props.System.Reach.sysOf hc h hm
  obtain ⟨r, v', s', tr, e, d, ha', _⟩ := exec_sim hc ha hk
  rw [e] at hm' ⊢
  have hr := d.ro (Or.inl rfl)
  have hx : s'.mounted = true := ha'.mounted_iff.trans hm'
  cases ha' with
  | up _ _ _ _ hr' _ => exact hr'.symm.trans hr
  | off h1 h2 => rw [h1] at hx; cases hx
  | none h1 h2 => rw [h1] at hx; cases hx

/-! ### Paths -/

theorem walk_errors {c : Conf} {F : Files} {dots : Prop} {i : Nat} {cs : List (List Byte)} {r : Except Err Nat} (w : Walk c F dots i cs r) {e : Err} (he : r = .error e) :
    e = .enotdir ∨ e = .enoent ∨ (e = .enametoolong ∧ ∃ n ∈ cs, c.nameMax < n.length) := by
  induction w with
  | done => cases he
  | name _ _ _ ih => exact (ih he).imp id (fun h => h.imp id fun ⟨h, n, hn, hl⟩ => ⟨h, n, List.mem_cons_of_mem _ hn, hl⟩)
  | dot _ _ _ ih => exact (ih he).imp id (fun h => h.imp id fun ⟨h, n, hn, hl⟩ => ⟨h, n, List.mem_cons_of_mem _ hn, hl⟩)
  | up _ _ _ ih => exact (ih he).imp id (fun h => h.imp id fun ⟨h, n, hn, hl⟩ => ⟨h, n, List.mem_cons_of_mem _ hn, hl⟩)
  | notDir => cases he; exact Or.inl rfl
  | tooLong _ _ hl => cases he; exact Or.inr (Or.inr ⟨rfl, _, List.mem_cons_self, hl⟩)
  | missing => cases he; exact Or.inr (Or.inl rfl)

theorem walk_ok_live {c : Conf} {v : Vol} (hc : c.SysOk) (hp : c.posix = true) (h : Reach c v) (hm : v.mounted = true) {dots : Prop} {i j : Nat} {cs : List (List Byte)}
    {r : Except Err Nat} (w : Walk c (files c v) dots i cs r) (hi : files c v i ≠ none) (he : r = .ok j) : files c v j ≠ none := by
  induction w with
  | done => cases he; exact hi
  | name _ hh _ ih => exact ih (has_live hc hp h hm hh).2.2.1 he
  | dot _ _ _ ih => exact ih hi he
  | up _ hf _ ih =>
    refine ih ?_ he
    split
    · obtain ⟨f, hf, _⟩ := root_dir hc hp h hm
      rw [hf.1]; simp
    · rename_i h2
      obtain ⟨g, hg⟩ := parent_dir hc hp h hm hf h2
      rw [hg.1]; simp
  | notDir => cases he
  | tooLong => cases he
  | missing => cases he

namespace Posix
variable {pc : PConf} {s s' s1 : PSt} {t : Nat}

theorem StartAt.error {path : List Byte} {e : Err} (h : StartAt pc s t path (.error e)) : e = .enoent := by cases h; rfl

theorem Names.errors {path : List Byte} {re e : Err} (h : Names pc s t path re (.error e)) :
    e ∈ [.enoent, .einval, .enotdir, .enametoolong, re] := by
  cases h with
  | start h => rw [h.error]; simp
  | off _ _ he => rcases he with rfl | rfl <;> simp
  | error _ _ w =>
    generalize hr : (Except.error e : Except Err (Nat × List Byte)) = r at w
    generalize comps pc.sep _ = cs at w
    cases w with
    | name => cases hr
    | error _ w => cases hr; rcases walk_errors w rfl with rfl | rfl | ⟨rfl, _⟩ <;> simp
    | dotsError _ _ w => cases hr; rcases walk_errors w rfl with rfl | rfl | ⟨rfl, _⟩ <;> simp
    | dots => cases hr; simp
    | dotsRoot => cases hr; simp
    | root => cases hr; simp

theorem Finds.errors {path : List Byte} {e : Err} (h : Finds pc s t path (.error e)) :
    e ∈ [.enoent, .einval, .enotdir] ∨ (e = .enametoolong ∧ ∃ vol start l n, StartAt pc s t path (.ok (vol, start, l)) ∧ n ∈ comps pc.sep l ∧ (pc.conf vol).nameMax < n.length) := by
  cases h with
  | start h => rw [h.error]; simp
  | off _ _ => simp
  | error hs _ w =>
    rcases walk_errors w rfl with rfl | rfl | ⟨rfl, n, hn, hl⟩
    · simp
    · simp
    · exact Or.inr ⟨rfl, _, _, _, n, hs, hn, hl⟩

theorem Names.live (hc : pc.Ok) (hi : PInv pc s) (hin : s.inited = true) {path : List Byte} (hs : CStr.Ok path) {re : Err} {vol p : Nat} {nm : List Byte}
    (h : Names pc s t path re (.ok (vol, p, nm))) :
    ∃ start l, StartAt pc s t path (.ok (vol, start, l)) ∧ vol < pc.n ∧ (s.vols vol).mounted = true ∧ s.files pc vol p ≠ none := by
  generalize hr : (Except.ok (vol, p, nm) : Except Err (Nat × Nat × List Byte)) = r at h
  cases h with
  | start => cases hr
  | off => cases hr
  | error => cases hr
  | ok hst hm w =>
    cases hr
    have S := hst.ok hc hi hin hs
    refine ⟨_, _, hst, S.lt, hm, ?_⟩
    obtain ⟨f, hf⟩ := S.up hm
    generalize hr : (Except.ok (p, nm) : Except Err (Nat × List Byte)) = r at w
    generalize comps pc.sep _ = cs at w
    cases w with
    | name _ w => cases hr; exact walk_ok_live (hc.sys _ S.lt) (hc.posix _ S.lt) (hi.reach _ S.lt) hm w (by rw [hf.1]; simp) rfl
    | error => cases hr
    | dotsError => cases hr
    | dots => cases hr
    | dotsRoot => cases hr
    | root => cases hr

theorem Finds.live (hc : pc.Ok) (hi : PInv pc s) (hin : s.inited = true) {path : List Byte} (hs : CStr.Ok path) {vol i : Nat}
    (h : Finds pc s t path (.ok (vol, i))) : vol < pc.n ∧ (s.vols vol).mounted = true ∧ s.files pc vol i ≠ none := by
  generalize hr : (Except.ok (vol, i) : Except Err (Nat × Nat)) = r at h
  cases h with
  | start => cases hr
  | off => cases hr
  | error => cases hr
  | ok hst hm w =>
    cases hr
    have S := hst.ok hc hi hin hs
    obtain ⟨f, hf⟩ := S.up hm
    exact ⟨S.lt, hm, walk_ok_live (hc.sys _ S.lt) (hc.posix _ S.lt) (hi.reach _ S.lt) hm w (by rw [hf.1]; simp) rfl⟩

/-! ### Read-only volumes -/

/-- A volume that stays mounted stays read-only, or writeable. -/
def RoKept (pc : PConf) (s s' : PSt) : Prop :=
  ∀ i, i < pc.n → (s.vols i).mounted = true → (s'.vols i).mounted = true → (s'.vols i).readOnly = (s.vols i).readOnly

theorem RoKept.same (h : s'.vols = s.vols) : RoKept pc s s' := fun i _ _ _ => by rw [h]
theorem Quiet.roKept (h : Quiet pc s s') : RoKept pc s s' := fun i hi _ _ => (h.vols i hi).ro
theorem OnVol.roKept {vol : Nat} {R : Files → Files → Prop} (h : OnVol pc vol s s' R) : RoKept pc s s' := fun i hi _ _ => by
  by_cases e : i = vol
  · subst e; exact h.ro
  · exact (h.others i hi e).ro
theorem coreCall_roKept (hc : pc.Ok) (hi : PInv pc s) {i : Nat} {k : Call} {r : Except Err Reply} (h : CoreCall pc i k s r s') (hk : i < pc.n → k.Ok (pc.conf i)) : RoKept pc s s' := fun j hj hm hm' => by
  by_cases e : j = i
  · subst e
    have e : s'.vols j = (exec (pc.conf j) k (s.vols j)).2 := by rw [← h.1]
    rw [e] at hm' ⊢
    exact exec_ro (hc.sys _ hj) (hi.reach _ hj) hm (hk hj) hm'
  · rw [h.2 j e]
theorem quiet_handle_ro {k : Nat} {x : Handle} (h : Quiet pc (s.setHandle k x) s') : RoKept pc s s' := fun i hi _ _ => (h.vols i hi).ro

theorem openExisting_ro {vol i mode : Nat} {type : FType} {r : Except Err Int} (h : OpenExisting pc vol i mode type s r s') : RoKept pc s s' := by
  rcases h with ⟨_, _, _, o, _⟩ | ⟨_, _, _, o, _⟩ | ⟨_, _, _, _, _, o, _⟩ | ⟨_, _, _, _, _, _, o, _⟩ <;> exact o.roKept

theorem fildesOpen_ro {path : List Byte} {mode : Nat} {type : FType} {r : Except Err Int} (h : FildesOpenDoes pc t path mode type s r s') : RoKept pc s s' := by
  rcases h with ⟨e, _, f⟩ | ⟨vol, start, l, _, h⟩
  · exact f.2.roKept
  by_cases c1 : (s.vols vol).readOnly = true ∧ mode ≠ oRdonly
  · exact (h.1 c1).2.roKept
  have h := h.2 c1
  by_cases c2 : ∀ k, k < pc.handles → (s.handle k).ino ≠ 0
  · exact (h.1 c2).2.roKept
  have h := h.2 c2
  by_cases c3 : has mode oCreat = true
  · rcases h.1 c3 with ⟨e, _, f⟩ | ⟨p, nm, _, ⟨i, o, ho⟩ | ⟨e, hr, _, o, hh⟩ | ⟨i, _, _, h⟩⟩
    · exact f.2.roKept
    · exact o.roKept
    · exact o.roKept
    · exact openExisting_ro h
  · rcases h.2 c3 with ⟨e, _, f⟩ | ⟨i, _, h⟩
    · exact f.2.roKept
    · exact openExisting_ro h

theorem body_ro (hc : pc.Ok) (hi : PInv pc s) {k : PCall} {r : Except Err PReply} (h : BodyDoes pc t k s r s') : RoKept pc s s' := by
  cases k with
  | init => exact absurd h id
  | uninit =>
    obtain ⟨r0, rfl, h⟩ := h
    by_cases x : ∃ i, i < pc.n ∧ (s.vols i).mounted = true
    · rw [(h.1 x).2]; exact .same rfl
    · rw [(h.2 x).2]; exact .same rfl
  | sync =>
    obtain ⟨r0, rfl, _, _, h⟩ := h
    intro i hi hm hm'
    have h := h i hi
    split at h
    · rename_i x; rw [h.2.1, x.2.1]
    · exact h.ro
  | mount vol flags =>
    obtain ⟨r0, rfl, h⟩ := h
    rcases h with ⟨_, h⟩ | ⟨i, hv, ⟨_, h⟩ | ⟨_, _, h⟩ | ⟨hm, _, h, _⟩⟩
    · exact h.2.roKept
    · exact h.2.roKept
    · exact h.2.roKept
    · exact coreCall_roKept hc hi h (fun _ => trivial)
  | umount vol flags =>
    obtain ⟨r0, rfl, h⟩ := h
    rcases h with ⟨_, h⟩ | ⟨_, _, h⟩ | ⟨i, hv, _, ⟨_, h⟩ | ⟨_, _, _, h⟩ | ⟨_, _, hr, h, _⟩⟩
    · exact h.2.roKept
    · exact h.2.roKept
    · exact h.2.roKept
    · exact h.2.roKept
    · exact coreCall_roKept hc hi h (fun _ => trivial)
  | format vol =>
    obtain ⟨r0, rfl, h⟩ := h
    rcases h with ⟨_, h⟩ | ⟨i, hv, ⟨_, h⟩ | ⟨_, _, ho, h, hm, _⟩⟩
    · exact h.2.roKept
    · exact h.2.roKept
    · intro j hj _ hm'
      by_cases e : j = i
      · subst e; rw [hm] at hm'; cases hm'
      · rw [ho j e]
  | transact vol =>
    obtain ⟨r0, rfl, h⟩ := h
    rcases h with ⟨_, h⟩ | ⟨i, hv, h, _⟩
    · exact h.2.roKept
    · exact coreCall_roKept hc hi h (fun _ => trivial)
  | rollback vol =>
    obtain ⟨r0, rfl, h⟩ := h
    rcases h with ⟨_, h⟩ | ⟨i, hv, ⟨_, h⟩ | ⟨_, h, _⟩⟩
    · exact h.2.roKept
    · exact h.2.roKept
    · exact coreCall_roKept hc hi h (fun _ => trivial)
  | setMask vol mask =>
    obtain ⟨r0, rfl, h⟩ := h
    rcases h with ⟨_, h⟩ | ⟨i, hv, h, _⟩
    · exact h.2.roKept
    · exact coreCall_roKept hc hi h (fun _ => trivial)
  | getMask vol =>
    obtain ⟨r0, rfl, h⟩ := h
    rcases h with ⟨_, h⟩ | ⟨i, hv, h, _⟩
    · exact h.2.roKept
    · exact coreCall_roKept hc hi h (fun _ => trivial)
  | statvfs vol =>
    obtain ⟨r0, rfl, h⟩ := h
    rcases h with ⟨_, h⟩ | ⟨i, hv, h, _⟩
    · exact h.2.roKept
    · exact coreCall_roKept hc hi h (fun hi => hc.posix _ hi)
  | «open» path mode =>
    obtain ⟨r0, rfl, h⟩ := h
    by_cases hm : ModeOk mode
    · exact fildesOpen_ro (h.1 hm)
    · exact (h.2 hm).2.roKept
  | unlink path =>
    obtain ⟨r0, rfl, h⟩ := h
    rcases h with ⟨_, _, h⟩ | ⟨_, _, _, _, o, h⟩
    · exact h.2.roKept
    · exact o.roKept
  | mkdir path =>
    obtain ⟨r0, rfl, h⟩ := h
    rcases h with ⟨_, _, h⟩ | ⟨_, _, _, _, _, _, o, h⟩
    · exact h.2.roKept
    · exact o.roKept
  | rmdir path =>
    obtain ⟨r0, rfl, h⟩ := h
    rcases h with ⟨_, _, h⟩ | ⟨_, _, _, _, o, h⟩
    · exact h.2.roKept
    · exact o.roKept
  | rename old new =>
    obtain ⟨r0, rfl, h⟩ := h
    rcases h with ⟨_, _, h⟩ | ⟨_, _, _, _, h⟩ | ⟨_, _, _, _, _, h⟩ | ⟨_, _, _, _, _, _, _, h⟩ | ⟨_, _, _, _, _, _, _, _, h⟩ | ⟨_, _, _, _, _, _, _, h⟩
    · exact h.2.roKept
    · exact h.2.roKept
    · exact h.2.roKept
    · exact h.2.roKept
    · exact h.2.roKept
    · rcases h with ⟨_, _, _, _, h⟩ | ⟨_, _, _, _, h⟩ | ⟨_, o, _⟩
      · exact h.2.roKept
      · exact h.2.roKept
      · exact o.roKept
  | link path new =>
    obtain ⟨r0, rfl, h⟩ := h
    rcases h with ⟨_, _, h⟩ | ⟨_, _, _, _, h⟩ | ⟨_, _, _, _, _, h⟩ | ⟨_, _, _, _, _, _, _, h⟩ | ⟨_, _, _, _, _, _, _, _, h⟩ | ⟨_, _, _, _, _, _, o, _⟩
    · exact h.2.roKept
    · exact h.2.roKept
    · exact h.2.roKept
    · exact h.2.roKept
    · exact h.2.roKept
    · exact o.roKept
  | close fd =>
    obtain ⟨r0, rfl, h⟩ := h
    rcases h with ⟨_, h⟩ | ⟨k, _, _, _, h⟩
    · exact h.2.roKept
    · exact h.1.roKept
  | read fd len =>
    obtain ⟨r0, rfl, h⟩ := h
    rcases h with ⟨_, _, h⟩ | ⟨k, _, ⟨_, h⟩ | ⟨f, _, _, _, q⟩⟩
    · exact h.2.roKept
    · exact h.2.roKept
    · exact quiet_handle_ro q
  | write fd len buf =>
    obtain ⟨r0, rfl, h⟩ := h
    rcases h with ⟨_, h⟩ | ⟨k, _, ⟨_, h⟩ | ⟨f, pos, _, _, _, o, _⟩⟩
    · exact h.2.roKept
    · exact h.2.roKept
    · exact o.roKept
  | fsync fd =>
    obtain ⟨r0, rfl, h⟩ := h
    rcases h with ⟨_, h⟩ | ⟨k, _, ⟨_, _, h⟩ | ⟨_, _, h⟩⟩
    · exact h.2.roKept
    · exact h.2.roKept
    · exact h.1.roKept
  | lseek fd off whence =>
    obtain ⟨r0, rfl, h⟩ := h
    rcases h with ⟨_, _, h⟩ | ⟨k, f, _, _, ⟨_, h⟩ | ⟨o, _, h⟩⟩
    · exact h.2.roKept
    · exact h.2.roKept
    · by_cases x : 0 ≤ (o : Int) + off ∧ (o : Int) + off ≤ (pc.conf (s.handle k).vol).sizeMax
      · obtain ⟨_, _, _, q⟩ := h.1 x; exact quiet_handle_ro q
      · exact (h.2 x).2.roKept
  | ftruncate fd size =>
    obtain ⟨r0, rfl, h⟩ := h
    rcases h with ⟨_, h⟩ | ⟨k, _, ⟨_, h⟩ | ⟨_, o, _⟩⟩
    · exact h.2.roKept
    · exact h.2.roKept
    · exact o.roKept
  | fstat fd =>
    obtain ⟨r0, rfl, h⟩ := h
    rcases h with ⟨_, h⟩ | ⟨k, _, _, _, _, q⟩
    · exact h.2.roKept
    · exact q.roKept
  | opendir path =>
    obtain ⟨r0, rfl, r1, h, _⟩ := h
    exact fildesOpen_ro h
  | readdir dir =>
    obtain ⟨r0, rfl, h⟩ := h
    rcases h with ⟨_, h⟩ | ⟨_, _, _, _, q, _⟩
    · exact h.2.roKept
    · exact quiet_handle_ro q
  | rewinddir dir =>
    obtain ⟨r0, rfl, _, h⟩ := h
    by_cases x : IsDirStream pc s dir
    · rw [h.1 x]; exact .same rfl
    · rw [h.2 x]; exact .same rfl
  | closedir dir =>
    obtain ⟨r0, rfl, h⟩ := h
    by_cases x : IsDirStream pc s dir
    · rw [(h.1 x).2]; exact .same rfl
    · rw [(h.2 x).2]; exact .same rfl
  | chdir path =>
    obtain ⟨r0, rfl, h⟩ := h
    rcases h with ⟨_, _, h⟩ | ⟨_, _, _, ⟨_, h⟩ | ⟨_, _, _, _, q⟩⟩
    · exact h.2.roKept
    · exact h.2.roKept
    · exact fun i hi _ _ => (q.vols i hi).ro
  | getcwd size => obtain ⟨r0, rfl, q, _⟩ := h; exact q.roKept

/-- A handle that may be written to is on a volume that is not read-only. -/
def WriteOk (pc : PConf) (s : PSt) : Prop :=
  s.inited = true → ∀ k, k < pc.handles → (s.handle k).ino ≠ 0 → (s.handle k).writeable = true → (s.vols (s.handle k).vol).readOnly = false

theorem has_rdonly {m : Nat} (h : has m oWronly = true ∨ has m oRdwr = true) : m ≠ oRdonly := by
  rintro rfl; revert h; decide

theorem fildesOpen_write {path : List Byte} {mode : Nat} {type : FType} {r : Except Err Int} (h : FildesOpenDoes pc t path mode type s r s') :
    s'.handle = s.handle ∨ ∃ vol i dir, Opened pc s vol i mode dir r s' ∧ (s'.vols vol).readOnly = (s.vols vol).readOnly ∧ ((s.vols vol).readOnly = true → mode = oRdonly) := by
  rcases h with ⟨e, _, f⟩ | ⟨vol, start, l, _, h⟩
  · exact Or.inl f.2.handle
  by_cases c1 : (s.vols vol).readOnly = true ∧ mode ≠ oRdonly
  · exact Or.inl (h.1 c1).2.handle
  have h := h.2 c1
  have c1' : (s.vols vol).readOnly = true → mode = oRdonly := fun h => Classical.byContradiction fun h' => c1 ⟨h, h'⟩
  have ex : ∀ {i : Nat}, OpenExisting pc vol i mode type s r s' → s'.handle = s.handle ∨
      ∃ vol i dir, Opened pc s vol i mode dir r s' ∧ (s'.vols vol).readOnly = (s.vols vol).readOnly ∧ ((s.vols vol).readOnly = true → mode = oRdonly) := by
    intro i h
    rcases h with ⟨_, _, _, _, h⟩ | ⟨_, _, _, _, h⟩ | ⟨_, _, _, _, _, o, h⟩ | ⟨_, _, _, _, _, _, o, ⟨_, _, _, h⟩ | ⟨_, h⟩⟩
    · exact Or.inl h
    · exact Or.inl h
    · exact Or.inr ⟨_, _, _, h, o.ro, c1'⟩
    · exact Or.inl h
    · exact Or.inr ⟨_, _, _, h, o.ro, c1'⟩
  by_cases c2 : ∀ k, k < pc.handles → (s.handle k).ino ≠ 0
  · exact Or.inl (h.1 c2).2.handle
  have h := h.2 c2
  by_cases c3 : has mode oCreat = true
  · rcases h.1 c3 with ⟨e, _, f⟩ | ⟨p, nm, _, ⟨i, o, ho⟩ | ⟨e, hr, _, o, hh⟩ | ⟨i, _, _, h⟩⟩
    · exact Or.inl f.2.handle
    · exact Or.inr ⟨_, _, _, ho, o.ro, c1'⟩
    · exact Or.inl hh
    · exact ex h
  · rcases h.2 c3 with ⟨e, _, f⟩ | ⟨i, _, h⟩
    · exact Or.inl f.2.handle
    · exact ex h

theorem body_write (hc : pc.Ok) (hi : PInv pc s)
    (hi' : s'.inited = true → ∀ j, j < pc.handles → (s'.handle j).ino ≠ 0 → (s'.handle j).vol < pc.n ∧ (s'.vols (s'.handle j).vol).mounted = true) (hin : s.inited = true) {k : PCall} {r : Except Err PReply} (h : BodyDoes pc t k s r s') (hw : WriteOk pc s) : WriteOk pc s' := by
  intro hin' j hj h0 hwr
  have ro := body_ro hc hi h
  have H := hi' hin' j hj h0
  have keep : ∀ x, s'.handle j = s.handle j ∨ s'.handle j = { s.handle j with off := x } → (s'.vols (s'.handle j).vol).readOnly = false := by
    intro x e
    have hh : (s'.handle j).ino = (s.handle j).ino ∧ (s'.handle j).vol = (s.handle j).vol ∧ (s'.handle j).writeable = (s.handle j).writeable := by
      rcases e with e | e <;> rw [e] <;> exact ⟨rfl, rfl, rfl⟩
    have K := hi.handle hin j hj (by rw [← hh.1]; exact h0)
    rw [ro _ H.1 (by rw [hh.2.1]; exact K.mounted) H.2, hh.2.1]
    exact hw hin j hj (by rw [← hh.1]; exact h0) (by rw [← hh.2.2]; exact hwr)
  have open_ : ∀ {path : List Byte} {mode : Nat} {type : FType} {r : Except Err Int}, FildesOpenDoes pc t path mode type s r s' → (s'.vols (s'.handle j).vol).readOnly = false := by
    intro path mode type r h
    rcases fildesOpen_write h with h | ⟨vol, i, dir, ⟨q, hq, hz, _, _, hh⟩, e, hro⟩
    · exact keep 0 (Or.inl (by rw [h]))
    · by_cases ej : j = q
      · subst ej
        rw [hh] at hwr ⊢
        simp only [upd, if_pos] at hwr ⊢
        have hwr : has mode oWronly = true ∨ has mode oRdwr = true := by simpa using hwr
        rw [e]
        cases hx : (s.vols vol).readOnly with
        | false => rfl
        | true => exact absurd (hro hx) (has_rdonly hwr)
      · exact keep 0 (Or.inl (by rw [hh]; simp [upd, ej]))
  cases k with
  | «open» path mode =>
    obtain ⟨r0, rfl, h⟩ := h
    by_cases hm : ModeOk mode
    · exact open_ (h.1 hm)
    · exact keep 0 (Or.inl (by rw [(h.2 hm).2.handle]))
  | opendir path =>
    obtain ⟨r0, rfl, r1, h, _⟩ := h
    exact open_ h
  | _ =>
    have he := body_handles hc hi hin h
    cases he with
    | same _ _ _ _ h4 =>
      rcases h4 j with h4 | ⟨_, x, h4⟩
      · exact keep 0 (Or.inl h4)
      · exact keep x (Or.inr h4)
    | opened _ _ _ _ _ _ h7 => obtain ⟨_, _, h7⟩ := h7; cases h7
    | openedDir _ _ _ _ _ _ h7 => obtain ⟨_, h7⟩ := h7; cases h7
    | @closed q fd _ h2 =>
      by_cases ej : j = q
      · subst ej; rw [h2] at h0; simp [upd] at h0
      · exact keep 0 (Or.inl (by rw [h2]; simp [upd, ej]))
    | mounted _ _ h3 => exact keep 0 (Or.inl (by rw [h3]))
    | @unmounted i _ h3 =>
      rw [h3] at h0
      unfold closeAll at h0
      split at h0
      · exact absurd rfl h0
      · rename_i hx; exact keep 0 (Or.inl (by rw [h3]; unfold closeAll; rw [if_neg hx]))

theorem WriteOk.alike (h : Alike s s') (hw : WriteOk pc s) : WriteOk pc s' := by
  intro hin j hj h0 hwr
  rw [h.inited] at hin
  rw [h.handle] at h0 hwr ⊢
  rw [h.vols]
  exact hw hin j hj h0 hwr

theorem PReach.writeOk (hc : pc.Ok) (h : PReach pc s) : WriteOk pc s := by
  obtain ⟨s0, tr, h0, hr⟩ := h
  have hi0 := h0.inv hc
  suffices x : ∀ {tr s}, PRun pc s0 tr s → PInv pc s ∧ WriteOk pc s from (x hr).2
  intro tr s hr
  induction hr with
  | nil => exact ⟨hi0, fun h => by rw [h0.inited] at h; cases h⟩
  | @call tr s t k _ hp ih =>
    have hi' := (pexec_spec hc ih.1 hp).1
    refine ⟨hi', ?_⟩
    rcases step_cases hc ih.1 hp (Prod.mk.eta (p := pexec pc t k s)).symm with ⟨_, _, hI, _⟩ | ⟨h, _⟩ | ⟨hin, s1, s2, _, hi1, a1, b, a2⟩
    · intro _ j hj h0; exact absurd (hI.handle j hj) h0
    · exact ih.2.alike h
    · refine WriteOk.alike a2 (body_write hc hi1 ?_ (a1.inited.trans hin) b (ih.2.alike a1))
      generalize (pexec pc t k s).2 = q at hi' a2
      intro x j hj h0
      rw [← a2.inited] at x
      rw [← a2.handle] at h0 ⊢
      rw [← a2.vols]
      exact ⟨(hi'.handle x j hj h0).vol, (hi'.handle x j hj h0).mounted⟩

/-! ### The errors -/

theorem notDir_err {F : Files} {p : Nat} {e : Err} (h : NotDir F p e) (hp : F p ≠ none) : e = .enotdir := by
  rcases h with ⟨_, h⟩ | ⟨h, _⟩
  · exact absurd h hp
  · exact h

theorem badName_err {c : Conf} {nm : List Byte} {e : Err} (h : BadName c nm e) : e = .einval ∨ e = .enametoolong := by
  rcases h with ⟨_, h⟩ | ⟨_, h⟩ | ⟨_, _, _, h⟩
  · exact Or.inl h
  · exact Or.inr h
  · exact Or.inl h

theorem badLen_err {c : Conf} {nm : List Byte} {e : Err} (h : BadLen c nm e) : e = .einval ∨ e = .enametoolong := by
  rcases h with ⟨_, h⟩ | ⟨_, h⟩
  · exact Or.inl h
  · exact Or.inr h

theorem noEntry_err {c : Conf} {F : Files} {p : Nat} {nm : List Byte} {e : Err} (h : NoEntry c F p nm e) : e ∈ [Err.einval, .enametoolong, .eexist, .enospc] := by
  rcases h with h | ⟨_, ⟨rfl, _⟩ | ⟨rfl, _⟩⟩
  · rcases badName_err h with rfl | rfl <;> simp
  · simp
  · simp

theorem create_err {c : Conf} {F F' : Files} {p : Nat} {nm : List Byte} {d : Bool} {e : Err} (h : Create c p nm d F (.error e) F') (hp : F p ≠ none) :
    e ∈ [Err.enotdir, .einval, .enametoolong, .eexist, .enospc] ∨ (e = .enfile ∧ ∀ i, c.inodeValid i = true → (F i).isSome = true) := by
  obtain ⟨_, h | ⟨_, h | ⟨_, h⟩⟩⟩ := h
  · rw [notDir_err h hp]; simp
  · exact Or.inr h
  · exact Or.inl (List.mem_cons_of_mem _ (noEntry_err h))

theorem link_err {c : Conf} {F F' : Files} {p i : Nat} {nm : List Byte} {e : Err} (h : Link c p nm i F (.error e) F') (hp : F p ≠ none) (hi : F i ≠ none) :
    e ∈ [Err.enotdir, .eperm, .emlink, .einval, .enametoolong, .eexist, .enospc] := by
  obtain ⟨_, h | ⟨_, ⟨_, h⟩ | ⟨h, _⟩ | ⟨_, _, ⟨h, _⟩ | ⟨_, h⟩⟩⟩⟩ := h
  · rw [notDir_err h hp]; simp
  · exact absurd h hi
  · rw [h]; simp
  · rw [h]; simp
  · exact List.mem_cons_of_mem _ (List.mem_cons_of_mem _ (List.mem_cons_of_mem _ (noEntry_err h)))

theorem lookup_err {c : Conf} {F : Files} {p : Nat} {nm : List Byte} {e : Err} (h : Lookup c p nm F (.error e)) (hp : F p ≠ none) :
    e ∈ [Err.enotdir, .einval, .enametoolong, .enoent] := by
  rcases h with h | ⟨_, h | ⟨_, _, h, _⟩⟩
  · rw [notDir_err h hp]; simp
  · rcases badLen_err h with rfl | rfl <;> simp
  · rw [h]; simp

theorem unlink_err {c : Conf} {F F' : Files} {p : Nat} {nm : List Byte} {e : Err} (h : Unlink c p nm F (.error e) F') (hp : F p ≠ none) :
    e ∈ [Err.enotdir, .einval, .enametoolong, .enoent, .enotempty, .enospc] := by
  obtain ⟨_, h | ⟨_, h | ⟨h, _⟩ | ⟨_, _, _, _, ⟨h, _⟩ | ⟨h, _⟩⟩⟩⟩ := h
  · rw [notDir_err h hp]; simp
  · rcases badLen_err h with rfl | rfl <;> simp
  · rw [h]; simp
  · rw [h]; simp
  · rw [h]; simp

theorem rename_err {c : Conf} {F F' : Files} {p p' : Nat} {nm nm' : List Byte} {e : Err} (h : Rename c p nm p' nm' F (.error e) F') (hp : F p ≠ none) (hp' : F p' ≠ none) :
    e ∈ [Err.enotdir, .einval, .enametoolong, .enoent, .eexist, .eisdir, .enotempty, .enospc] := by
  obtain ⟨_, h⟩ := h
  cases h with
  | srcDir h => rw [notDir_err h hp]; simp
  | dstDir h => rw [notDir_err h hp']; simp
  | dstName h => rcases badLen_err h with rfl | rfl <;> simp
  | srcName h => rcases badLen_err h with rfl | rfl <;> simp
  | _ => simp

theorem remove_err {c : Conf} {held : Nat → Prop} {dir : Prop} {ro : Bool} {F F' : Files} {p : Nat} {nm : List Byte} {e : Err} (h : Remove c held dir ro p nm F (.error e) F') (hp : F p ≠ none) :
    e ∈ [Err.enotdir, .einval, .enametoolong, .enoent, .enotempty, .enospc, .ebusy] ∨ (e = .erofs ∧ ro = true) := by
  have l : ∀ {e : Err}, e ∈ [Err.enotdir, .einval, .enametoolong, .enoent] → e ∈ [Err.enotdir, .einval, .enametoolong, .enoent, .enotempty, .enospc, .ebusy] := by
    intro e h; simp only [List.mem_cons, List.mem_nil_iff, or_false] at h ⊢; grind
  have l' : ∀ {e : Err}, e ∈ [Err.enotdir, .einval, .enametoolong, .enoent, .enotempty, .enospc] → e ∈ [Err.enotdir, .einval, .enametoolong, .enoent, .enotempty, .enospc, .ebusy] := by
    intro e h; simp only [List.mem_cons, List.mem_nil_iff, or_false] at h ⊢; grind
  rcases h with ⟨x, h, he, _⟩ | ⟨i, _, ⟨_, _, he, _⟩ | ⟨_, h⟩⟩
  · cases he; exact Or.inl (l (lookup_err h hp))
  · cases he; simp
  · by_cases hh : held i
    · cases (h.1 hh).1; simp
    · have h := h.2 hh
      split at h
      · rename_i hr; cases h.1; exact Or.inr ⟨rfl, hr⟩
      · exact Or.inl (l' (unlink_err h hp))

theorem notReg_err {F : Files} {p : Nat} {f : AFile} {e : Err} (h : NotReg F p e) (hp : IsReg F p f) : False := by
  rcases h with ⟨_, h⟩ | ⟨_, g, h⟩
  · rw [hp.1] at h; cases h
  · have e := hp.1; rw [h.1] at e; injection e with e; subst e
    exact modes_ne (h.2.symm.trans hp.2)

theorem core_err (hc : pc.Ok) (hi : PInv pc s) {i : Nat} (hv : i < pc.n) {k : Call} {r : Except Err Reply} (h : CoreCall pc i k s r s') (hk : k.Ok (pc.conf i)) :
    ∃ y y' tr, Spec.Does (pc.conf i) k y r y' tr ∧ y.mounted = (s.vols i).mounted ∧ (y.mounted = true → y.ro = (s.vols i).readOnly) := by
  obtain ⟨y, ha⟩ := (hi.reach i hv).abs (hc.sys i hv)
  obtain ⟨r', v', y', tr, e, d, ha', _⟩ := exec_sim (hc.sys i hv) ha hk
  have : r = r' := by have := h.1; rw [e] at this; exact congrArg Prod.fst this
  subst this
  refine ⟨y, y', tr, d, ha.mounted_iff, fun hm => ?_⟩
  cases ha with
  | up _ _ _ _ hr' _ => exact hr'
  | off h1 h2 => rw [h1] at hm; cases hm
  | none h1 h2 => rw [h1] at hm; cases hm

theorem openExisting_err (hc : pc.Ok) (hi : PInv pc s) {vol i mode : Nat} {type : FType} {e : Err} (h : OpenExisting pc vol i mode type s (.error e) s') :
    e ∈ [Err.enotdir, .eisdir, .enospc] ∨ (e = .erofs ∧ (s.vols vol).readOnly = true) := by
  rcases h with ⟨_, _, hr, _, _⟩ | ⟨_, _, hr, _, _⟩ | ⟨_, _, _, _, _, o, _, _, _, _, hr, _⟩ | ⟨f, r0, hf, _, _, _, o, ⟨x, h0, hr, _⟩ | ⟨_, _, _, _, _, hr, _⟩⟩
  · cases hr; simp
  · cases hr; simp
  · cases hr
  · cases hr
    subst h0
    have hrel := o.rel
    unfold Rw at hrel
    split at hrel
    · rename_i hro; cases hrel.1; exact Or.inr ⟨rfl, hro⟩
    · obtain ⟨_, h | ⟨_, _, h⟩⟩ := hrel
      · rcases h with ⟨_, h⟩ | ⟨h, _⟩
        · rw [show s.files pc vol i = _ from hf] at h; cases h
        · rw [h]; simp
      · rw [if_neg (by omega)] at h; rw [h]; simp
  · cases hr

theorem fildesOpen_err (hc : pc.Ok) (hi : PInv pc s) (hin : s.inited = true) {path : List Byte} (hs : CStr.Ok path) {mode : Nat} {type : FType} {e : Err}
    (h : FildesOpenDoes pc t path mode type s (.error e) s') :
    e ∈ [Err.enoent, .einval, .enotdir, .emfile] ∨
    (has mode oCreat = true ∧ e ∈ [Err.eisdir, .enametoolong, .eexist, .enospc, .enfile]) ∨
    (e = .eisdir ∧ has mode oRdonly = false) ∨ (mode ≠ oRdonly ∧ e = .erofs) ∨
    (has mode oTrunc = true ∧ e ∈ [Err.eisdir, .enospc]) ∨
    (e = .enametoolong ∧ ∃ vol start l n, StartAt pc s t path (.ok (vol, start, l)) ∧ n ∈ comps pc.sep l ∧ (pc.conf vol).nameMax < n.length) := by
  rcases h with ⟨e', h, f⟩ | ⟨vol, start, l, _, h⟩
  · have f1 := f.1; cases f1; rw [h.error]; simp
  by_cases c1 : (s.vols vol).readOnly = true ∧ mode ≠ oRdonly
  · have f := (h.1 c1).1; cases f; exact Or.inr (Or.inr (Or.inr (Or.inl ⟨c1.2, rfl⟩)))
  have h := h.2 c1
  by_cases c2 : ∀ k, k < pc.handles → (s.handle k).ino ≠ 0
  · have f := (h.1 c2).1; cases f; simp
  have h := h.2 c2
  have ex : ∀ {i : Nat}, OpenExisting pc vol i mode type s (.error e) s' → e = .enotdir ∨ (e = .eisdir ∧ has mode oRdonly = false) ∨ (has mode oTrunc = true ∧ e ∈ [Err.eisdir, .enospc]) ∨
      (mode ≠ oRdonly ∧ e = .erofs) := by
    intro i h
    have h2 := openExisting_err hc hi h
    rcases h with ⟨_, _, hr, _, _⟩ | ⟨hx, _, hr, _, _⟩ | ⟨_, _, _, _, _, o, _, _, _, _, hr, _⟩ | ⟨f, r0, hf, _, _, ht, o, ⟨x, h0, hr, _⟩ | ⟨_, _, _, _, _, hr, _⟩⟩
    · cases hr; exact Or.inl rfl
    · cases hr; exact Or.inr (Or.inl ⟨rfl, hx⟩)
    · cases hr
    · rcases h2 with h2 | ⟨rfl, h2⟩
      · simp only [List.mem_cons, List.mem_nil_iff, or_false] at h2 ⊢; grind
      · refine Or.inr (Or.inr (Or.inr ⟨fun hm => ?_, rfl⟩))
        rw [hm] at ht; revert ht; decide
    · cases hr
  by_cases c3 : has mode oCreat = true
  · rcases h.1 c3 with ⟨x, h, f⟩ | ⟨p, nm, hn, ⟨i, o, _, _, _, _, hr, _⟩ | ⟨x, hr, _, o, hh⟩ | ⟨i, _, _, h⟩⟩
    · have f1 := f.1; cases f1
      have := h.errors
      simp only [List.mem_cons, List.mem_nil_iff, or_false] at this ⊢; grind
    · cases hr
    · cases hr
      obtain ⟨_, _, _, _, _, hp⟩ := hn.live hc hi hin hs
      rcases create_err o.rel hp with h | ⟨rfl, _⟩
      · simp only [List.mem_cons, List.mem_nil_iff, or_false] at h ⊢; grind
      · simp [c3]
    · have := ex h
      simp only [List.mem_cons, List.mem_nil_iff, or_false] at this ⊢; grind
  · rcases h.2 c3 with ⟨x, h, f⟩ | ⟨i, _, h⟩
    · have f1 := f.1; cases f1
      rcases h.errors with h | h
      · simp only [List.mem_cons, List.mem_nil_iff, or_false] at h ⊢; grind
      · exact Or.inr (Or.inr (Or.inr (Or.inr (Or.inr h))))
    · have := ex h
      simp only [List.mem_cons, List.mem_nil_iff, or_false] at this ⊢; grind

end Posix
end RedFs
