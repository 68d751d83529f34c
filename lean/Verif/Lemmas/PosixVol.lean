import Verif.Lemmas.PosixOpen
set_option linter.unusedSimpArgs false
set_option linter.unusedVariables false
set_option linter.unusedSectionVars false
/-!
The calls that work on volumes.
-/
namespace RedFs
open Spec M Props.System

theorem exec_abs {c : Conf} {v : Vol} (hc : c.SysOk) (h : Reach c v) {k : Call} (hk : k.Ok c) :
    ∃ s s' tr, Abs c v s ∧ Abs c (exec c k v).2 s' ∧ Does c k s (exec c k v).1 s' tr := by
  obtain ⟨s, A⟩ := h.abs hc
  obtain ⟨r, v', s', tr, e, d, A', _⟩ := exec_sim hc A hk
  rw [e]; exact ⟨s, s', tr, A, A', d⟩

/-- The calls that change no files. -/
def Call.keepsFiles : Call → Prop
  | .transact => True
  | .maskSet _ => True
  | .maskGet => True
  | .statfs => True
  | _ => False

theorem exec_keeps {c : Conf} {v : Vol} (hc : c.SysOk) (h : Reach c v) {k : Call} (hk : k.Ok c) (hq : k.keepsFiles) :
    (exec c k v).2.mounted = v.mounted ∧ (v.mounted = true → files c (exec c k v).2 = files c v) := by
  obtain ⟨s, s', tr, A, A', d⟩ := exec_abs hc h hk
  have key : s'.mounted = s.mounted ∧ (s.mounted = true → s'.now = s.now) := by
    cases k <;> first | exact hq.elim | skip
    all_goals simp only [Spec.Does] at d
    · exact ⟨by rw [d.1], fun _ => by rw [d.1]⟩
    · obtain ⟨_, d⟩ := d
      split at d
      · rw [d.2]; exact ⟨rfl, fun _ => rfl⟩
      · split at d <;> rw [d.2] <;> exact ⟨rfl, fun _ => rfl⟩
    · exact ⟨by rw [d.1], fun _ => by rw [d.1]⟩
    · split at d
      · rw [d.2.1]; exact ⟨rfl, fun _ => rfl⟩
      · split at d
        · rw [d.2.1]; exact ⟨rfl, fun _ => rfl⟩
        · rw [d.2.2]; exact ⟨rfl, fun _ => rfl⟩
  refine ⟨by rw [← A'.mounted_iff, ← A.mounted_iff]; exact key.1, fun hm => ?_⟩
  have hm1 := A.mounted_iff.trans hm
  rw [← (A.inv hm1).2.1, ← (A'.inv (key.1.trans hm1)).2.1]
  exact key.2 hm1

theorem exec_mount {c : Conf} {v : Vol} (hc : c.SysOk) (h : Reach c v) (hm : v.mounted = false) (ro : Bool) :
    ∃ r v', volMount c ro v = (r, v') ∧ exec c (.mount ro) v = (r.map fun _ => .unit, v') ∧ Reach c v' ∧ (v'.mounted = true ↔ r = .ok ()) := by
  have e0 : exec c (.mount ro) v = ((volMount c ro v).1.map fun _ => .unit, (volMount c ro v).2) := by
    refine reply_run ?_
    unfold apiMount; rw [run_bind, run_get]; dsimp only; rw [if_neg (by rw [hm]; simp)]
  obtain ⟨s, s', tr, A, A', d⟩ := exec_abs hc h (k := .mount ro) trivial
  refine ⟨_, _, (Prod.mk.eta ..).symm, e0, h.call (k := .mount ro) trivial e0, ?_⟩
  rw [e0] at A' d
  have hs := A.mounted_iff.trans hm
  simp only [Spec.Does] at d
  rw [if_neg (by rw [hs]; simp)] at d
  rw [← A'.mounted_iff]
  obtain ⟨_, d⟩ := d
  cases hd : s.disk with
  | none =>
    rw [hd] at d
    rw [d.2, hs]
    have d1 := d.1
    generalize (volMount c ro v).1 = x at d1 ⊢
    rcases x with e | u
    · simp
    · cases d1
  | some F =>
    rw [hd] at d
    rw [d.2]
    have d1 := d.1
    generalize (volMount c ro v).1 = x at d1 ⊢
    rcases x with e | u
    · cases d1
    · simp

theorem exec_unmount {c : Conf} {v : Vol} (hc : c.SysOk) (h : Reach c v) (hm : v.mounted = true) :
    ∃ v', coreUnmount v = (.ok (), v') ∧ exec c .unmount v = (.ok .unit, v') ∧ Reach c v' ∧ v'.mounted = false := by
  have e0 : exec c .unmount v = ((coreUnmount v).1.map fun _ => .unit, (coreUnmount v).2) := by
    refine reply_run ?_
    unfold apiUnmount; rw [run_bind, run_get]; dsimp only; rw [if_pos hm]
  obtain ⟨s, s', tr, A, A', d⟩ := exec_abs hc h (k := .unmount) trivial
  have hs := A.mounted_iff.trans hm
  simp only [Spec.Does] at d
  rw [if_neg (by rw [hs]; simp)] at d
  have hr := h.call (k := .unmount) trivial e0
  rw [e0] at A' d
  have hm' := A'.mounted_iff
  rw [d.2.2] at hm'
  rcases hx : coreUnmount v with ⟨e | ⟨⟩, v'⟩
  · rw [hx] at d; cases d.1
  · rw [hx] at e0 hr hm'
    exact ⟨v', rfl, e0, hr, hm'.symm⟩

theorem exec_rollback {c : Conf} {v : Vol} (hc : c.SysOk) (h : Reach c v) :
    ∃ r v', coreVolRollback c v = (r, v') ∧ exec c .rollback v = (r.map fun _ => .unit, v') ∧ Reach c v' ∧ v'.mounted = v.mounted ∧
      (v.mounted = false → ∃ e, r = .error e) ∧ ((∃ e, r = .error e) → v.mounted = true → files c v' = files c v) := by
  have e0 : exec c .rollback v = ((coreVolRollback c v).1.map fun _ => .unit, (coreVolRollback c v).2) := reply_run (Prod.mk.eta ..).symm
  obtain ⟨s, s', tr, A, A', d⟩ := exec_abs hc h (k := .rollback) trivial
  have hr := h.call (k := .rollback) trivial e0
  rw [e0] at A' d
  simp only [Spec.Does] at d
  obtain ⟨_, d⟩ := d
  refine ⟨_, _, (Prod.mk.eta ..).symm, e0, hr, ?_, fun hm => ?_, fun he hm => ?_⟩
  · rw [← A'.mounted_iff, ← A.mounted_iff]
    split at d
    · rw [d.2]
    · split at d
      · rw [d.2]
      · obtain ⟨_, F, _, d⟩ := d; rw [d]
  · rw [if_pos (A.mounted_iff.trans hm)] at d
    have d1 := d.1
    generalize (coreVolRollback c v).1 = x at d1 ⊢
    rcases x with e | u
    · exact ⟨e, rfl⟩
    · cases d1
  · have hs := A.mounted_iff.trans hm
    rw [if_neg (by rw [hs]; simp)] at d
    split at d
    · have hs' : s'.mounted = true := by rw [d.2]; exact hs
      rw [← (A'.inv hs').2.1, ← (A.inv hs).2.1, d.2]
    · obtain ⟨e, he⟩ := he
      rw [he] at d; cases d.1

theorem format_typed {c : Conf} {v : Vol} (hc : c.SysOk) (h : Reach c v) (hm : v.mounted = false) (h0 : v.almostFree = 0) :
    ∃ v', Posix.apiFormat c v = (.ok (), v') ∧ Reach c v' ∧ v'.mounted = false ∧ Found c v' (formatted c) := by
  obtain ⟨s, A⟩ := h.abs hc
  have hs := A.mounted_iff.trans hm
  obtain ⟨v', e, A', _⟩ := format_sim hc A hs h0
  refine ⟨{ v' with hist := [] }, ?_, ?_, ?_, Abs.found hc A' hs rfl⟩
  · unfold Posix.apiFormat; rw [e, if_neg (by rw [hm]; simp)]
  · obtain ⟨v0, t, hb, hr⟩ := h
    have := hr.format (Or.inl h0) e
    rw [if_neg (by rw [hm]; simp)] at this
    exact ⟨v0, _, hb, this⟩
  · rw [← A'.mounted_iff]; exact hs

theorem format_up {c : Conf} {v : Vol} (hm : v.mounted = true) : Posix.apiFormat c v = (.error .ebusy, v) := by
  have : volFormat c v = (.error .ebusy, v) := by
    unfold volFormat; rw [run_bind, run_get]; dsimp only; rw [if_pos hm]; rfl
  unfold Posix.apiFormat; rw [this, if_pos hm]

theorem init_reach {c : Conf} {v : Vol} (h : Reach c v) (hm : v.mounted = false) (mask : Nat) : Reach c (coreInit mask v) := by
  obtain ⟨v0, t, hb, hr⟩ := h
  exact ⟨v0, _, hb, hr.init hm⟩

end RedFs

namespace RedFs.Posix
open M Str Path Spec

variable {pc : PConf} {s s' s'' : PSt}

theorem comps_nil_iff (sep : Byte) (l : List Byte) : comps sep l = [] ↔ skipSep sep l = [] := by
  rw [← comps_skip]
  constructor
  · intro h
    by_cases h0 : skipSep sep l = []
    · exact h0
    · exact absurd h (comps_eq_nil h0 (skipSep_idem _ _))
  · intro h; rw [h]; exact comps_nil _

theorem extra_iff (sep : Byte) (l : List Byte) : (l ≠ [] ∧ isRootDir sep l = false) ↔ comps sep l ≠ [] := by
  rw [Ne, Ne, comps_nil_iff]
  unfold isRootDir
  have hle := skipSep_length sep l
  constructor
  · rintro ⟨h1, h2⟩ h3
    rw [h3] at h2
    have : 0 < l.length := List.length_pos_iff.2 h1
    simp at h2
    exact h1 h2
  · intro h
    refine ⟨fun e => h (by rw [e]; rfl), ?_⟩
    simp [h]

theorem volName_unique (hc : pc.Ok) {path : List Byte} {i j : Nat} (h : VolName pc path i) (h' : VolName pc path j) : i = j := selected_unique hc h.1 h'.1

/-- `RedPathVolumeLookup` -/
theorem volumeLookup_spec (hc : pc.Ok) {path : List Byte} (hs : CStr.Ok path) (s : PSt) :
    (∃ s', volumeLookup pc path s = (.error .enoent, s') ∧ Quiet pc s s' ∧ ∀ i, ¬ VolName pc path i) ∨
    ∃ i, volumeLookup pc path s = (.ok i, { s with cur := i }) ∧ VolName pc path i := by
  unfold volumeLookup prefixLookup
  have hp := prefixVol_spec hc hs
  rw [run_bind]
  cases hv : prefixVol pc path with
  | none =>
    rw [hv] at hp
    exact Or.inl ⟨s, rfl, Quiet.refl _ _, fun i hi => hp i hi.1.1 hi.1.2.1⟩
  | some i =>
    rw [hv] at hp
    dsimp only
    rw [run_bind, setCur_ok hp.1]
    dsimp only
    simp only [run_pure]
    rw [run_bind, run_get]
    dsimp only
    rw [strLen_ok _ (hc.pre i hp.1)]
    by_cases hx : path.drop (pc.pre i).length ≠ [] ∧ isRootDir pc.sep (path.drop (pc.pre i).length) = false
    · rw [if_pos hx]
      refine Or.inl ⟨_, rfl, quiet_cur hp.1 s, fun j hj => ?_⟩
      have := selected_unique hc hj.1 hp
      subst this
      exact (extra_iff _ _).1 hx hj.2
    · rw [if_neg hx]
      refine Or.inr ⟨i, rfl, hp, ?_⟩
      by_contra h
      exact hx ((extra_iff _ _).2 h)

/-- Volume `i` is replaced. -/
theorem PInv.replace (h : PInv pc s) (hin : s.inited = true) {i : Nat} (hi : i < pc.n) (hin' : s'.inited = true) (hcur : s'.cur < pc.n)
    (hv : ∀ j, j ≠ i → s'.vols j = s.vols j) (hr : Reach (pc.conf i) (s'.vols i))
    (hH : ∀ k, k < pc.handles → (s'.handle k).ino ≠ 0 → (s'.handle k).vol = i → HandleOk pc s' (s'.handle k))
    (hH' : ∀ k, k < pc.handles → (s'.handle k).ino ≠ 0 → (s'.handle k).vol ≠ i → s'.handle k = s.handle k)
    (hS : ∀ k, k < pc.tasks → (s'.slot k).task = (s.slot k).task)
    (hS1 : pc.cwd = true → ∀ k, k < pc.tasks → (s'.slot k).cwdVol = i → SlotOk pc s' (s'.slot k))
    (hS2 : ∀ k, k < pc.tasks → (s'.slot k).cwdVol ≠ i → s'.slot k = s.slot k)
    (hg : s'.gen i ≤ 2047 ∧ ((s'.vols i).mounted = true → 1 ≤ s'.gen i)) (hg' : ∀ j, j ≠ i → s'.gen j = s.gen j) : PInv pc s' := by
  refine ⟨fun j hj => ?_, hcur, (fun h => by rw [hin'] at h; cases h), fun _ k hk h0 => ?_, fun _ hc k hk => ?_, fun _ a b ha hb => ?_, fun j hj => ?_⟩
  · by_cases e : j = i
    · subst e; exact hr
    · rw [hv j e]; exact h.reach j hj
  · by_cases e : (s'.handle k).vol = i
    · exact hH k hk h0 e
    · have e1 := hH' k hk h0 e
      rw [e1] at h0 e ⊢
      exact (h.handle hin k hk h0).congr (by rw [hv _ e]) (fun f hf => ⟨f, by rw [hv _ e]; exact hf, rfl⟩)
  · by_cases e : (s'.slot k).cwdVol = i
    · exact hS1 hc k hk e
    · have e1 := hS2 k hk e
      rw [e1] at e ⊢
      exact (h.slot hin hc k hk).congr (by rw [hv _ e]) (fun _ f hf => ⟨f, by rw [hv _ e]; exact hf, rfl⟩)
  · rw [hS a ha, hS b hb]; exact h.task hin a b ha hb
  · by_cases e : j = i
    · subst e; exact hg
    · rw [hv j e, hg' j e]; exact h.gen j hj

/-- The current volume changes, but its files do not. -/
theorem PInv.keep (h : PInv pc s) (hin : s.inited = true) {v : Vol} (hr : Reach (s.c pc) v) (hm : v.mounted = s.v.mounted)
    (hf : s.v.mounted = true → RedFs.files (s.c pc) v = s.F pc) : PInv pc (s.put v) := by
  refine h.replace (s' := s.put v) hin h.cur hin h.cur (fun j hj => by rw [put_vols, if_neg hj]) (by rw [put_vols, if_pos rfl]; exact hr) ?_ (fun _ _ _ _ => rfl) (fun _ _ => rfl) ?_
    (fun _ _ _ => rfl) ?_ (fun _ _ => rfl)
  · intro k hk h0 e
    have e : (s.handle k).vol = s.cur := e
    have H := h.handle hin k hk h0
    refine H.congr ?_ ?_
    · show ((s.put v).vols (s.handle k).vol).mounted = _; rw [e, put_vols, if_pos rfl]; exact hm
    · intro f hf'
      refine ⟨f, ?_, rfl⟩
      have hm' := H.mounted
      rw [e] at hf' hm' ⊢
      rw [put_vols, if_pos rfl, hf hm']; exact hf'
  · intro hc k hk e
    have e : (s.slot k).cwdVol = s.cur := e
    refine (h.slot hin hc k hk).congr ?_ ?_
    · show ((s.put v).vols (s.slot k).cwdVol).mounted = _; rw [e, put_vols, if_pos rfl]; exact hm
    · intro hm' f hf'
      refine ⟨f, ?_, rfl⟩
      rw [e] at hf' hm' ⊢
      rw [put_vols, if_pos rfl, hf hm']; exact hf'
  · have := h.gen s.cur h.cur
    rw [put_vols, if_pos rfl, hm]; exact this

section
variable (hc : pc.Ok) (hi : PInv pc s) (hin : s.inited = true)
include hc hi hin

/-- The calls that change no files: `red_transact`, `red_settransmask`, `red_gettransmask`, `red_statvfs`. -/
theorem volDoes_spec {α : Type} {path : List Byte} (hs : CStr.Ok path) {k : Call} (hk : ∀ i, i < pc.n → k.Ok (pc.conf i)) (hq : k.keepsFiles) {f : α → Reply}
    {m : Conf → VM α} (hx : ∀ c, exec c k = reply f (m c)) :
    ∃ r s', (do let _ ← volumeLookup pc path; onCur pc m : PM α) s = (r, s') ∧ PInv pc s' ∧ VolDoes pc path k f s r s' := by
  rw [run_bind]
  rcases volumeLookup_spec hc hs s with ⟨s1, e1, q, h⟩ | ⟨i, e1, h⟩
  · rw [e1]; exact ⟨_, _, rfl, hi.quiet q, Or.inl ⟨h, rfl, q⟩⟩
  rw [e1]; dsimp only
  have hv : i < pc.n := h.1.1
  have hi1 := hi.quiet (quiet_cur hv s)
  have e0 : exec (pc.conf i) k (s.vols i) = ((m (pc.conf i) (s.vols i)).1.map f, (m (pc.conf i) (s.vols i)).2) := by rw [hx]; exact reply_run (Prod.mk.eta ..).symm
  obtain ⟨k1, k2⟩ := exec_keeps (hc.sys _ hv) (hi.reach _ hv) (hk i hv) hq
  have hr := (hi.reach _ hv).call (hk i hv) e0
  rw [e0] at k1 k2
  refine ⟨_, _, onCur_eta m { s with cur := i }, hi1.keep hin hr k1 k2, Or.inr ⟨i, h, ⟨?_, fun j hj => ?_⟩, ⟨rfl, rfl, rfl, rfl⟩⟩⟩
  · rw [e0, put_vols, if_pos rfl]
  · rw [put_vols, if_neg hj]

theorem pair_and {flags : Nat} : flags &&& 1 ≠ flags ↔ 2 ≤ flags := by
  rw [Nat.and_one_is_mod]; omega

/-- `red_mount2` -/
theorem pMount_spec {path : List Byte} (hs : CStr.Ok path) (flags : Nat) :
    ∃ r s', pMount pc path flags s = (r, s') ∧ PInv pc s' ∧ MountDoes pc path flags s r s' := by
  unfold pMount
  rw [run_bind]
  rcases volumeLookup_spec hc hs s with ⟨s1, e1, q, h⟩ | ⟨i, e1, h⟩
  · rw [e1]; exact ⟨_, _, rfl, hi.quiet q, Or.inl ⟨h, rfl, q⟩⟩
  rw [e1]; dsimp only
  have hv : i < pc.n := h.1.1
  have q1 := quiet_cur hv s
  have hi1 := hi.quiet q1
  rw [run_bind, show curVol { s with cur := i } = (.ok (s.vols i), { s with cur := i }) from rfl]; dsimp only
  cases hm : (s.vols i).mounted with
  | true => rw [if_pos rfl]; exact ⟨_, _, rfl, hi1, Or.inr ⟨i, h, Or.inl ⟨hm, rfl, q1⟩⟩⟩
  | false =>
    rw [if_neg (by simp), run_bind]
    by_cases hf : flags &&& 1 ≠ flags
    · rw [onCur_off (r := .error .einval) (by rw [if_pos hf]; rfl)]
      exact ⟨_, _, rfl, hi1, Or.inr ⟨i, h, Or.inr (Or.inl ⟨hm, (pair_and hc hi hin).1 hf, rfl, q1⟩)⟩⟩
    · obtain ⟨r, v', m1, m2, m3, m4⟩ := exec_mount (hc.sys _ hv) (hi.reach _ hv) hm (decide (flags = 1))
      rw [onCur_run (m := fun c => if flags &&& 1 ≠ flags then fail .einval else volMount c (decide (flags = 1))) (s := { s with cur := i }) (r := r) (v := v') (by rw [if_neg hf]; exact m1)]
      have hle : flags ≤ 1 := by have := mt (pair_and hc hi hin).2 hf; omega
      have cc : CoreCall pc i (.mount (decide (flags = 1))) s (r.map fun _ => .unit) (({ s with cur := i } : PSt).put v') := by
        refine ⟨?_, fun j hj => by rw [put_vols, if_neg hj]⟩
        rw [m2, put_vols, if_pos rfl]
      have hnone : ∀ k, k < pc.handles → (s.handle k).ino ≠ 0 → (s.handle k).vol ≠ i := by
        intro k hk h0 e
        have := (hi.handle hin k hk h0).mounted
        rw [e, hm] at this; cases this
      have hg := hi.gen i hv
      rcases r with e | u
      · refine ⟨_, _, rfl, ?_, Or.inr ⟨i, h, Or.inr (Or.inr ⟨hm, hle, cc, rfl, rfl, rfl, rfl⟩)⟩⟩
        have hm' : v'.mounted = false := by
          cases hh : v'.mounted with
          | false => rfl
          | true => cases m4.1 hh
        refine hi1.keep hin m3 ?_ (fun h => by rw [show (PSt.v { s with cur := i }).mounted = false from hm] at h; cases h)
        rw [hm']; exact hm.symm
      · dsimp only
        have hm' : v'.mounted = true := m4.2 rfl
        have hgen : (if fdGenMax < s.gen i + 1 then 1 else s.gen i + 1) = nextGen (s.gen i) := by
          unfold nextGen fdGenMax
          by_cases h : s.gen i = 2047
          · rw [if_pos h, if_pos (by omega)]
          · rw [if_neg h, if_neg (by omega)]
        have hgn : nextGen (s.gen i) ≤ 2047 ∧ 1 ≤ nextGen (s.gen i) := by unfold nextGen; split <;> omega
        rw [run_modify]
        refine ⟨_, _, rfl, ?_, Or.inr ⟨i, h, Or.inr (Or.inr ⟨hm, hle, ⟨cc.1, cc.2⟩, rfl, rfl, rfl, ?_⟩)⟩⟩
        · refine hi.replace hin hv hin hv (fun j hj => cc.2 j hj) ?_ (fun k hk h0 e => absurd e (hnone k hk h0)) (fun _ _ _ _ => rfl) (fun _ _ => rfl) ?_ (fun _ _ _ => rfl) ?_ ?_
          · show Reach _ (({ s with cur := i } : PSt).put v' |>.vols i); rw [put_vols, if_pos rfl]; exact m3
          · intro hcw k hk e
            have e : (s.slot k).cwdVol = i := e
            have h2 := (hi.slot hin hcw k hk).off (by rw [e]; exact hm)
            have hvv : ((({ s with cur := i } : PSt).put v').vols i) = v' := by rw [put_vols, if_pos rfl]
            refine ⟨by show (s.slot k).cwdVol < pc.n; rw [e]; exact hv, fun _ => ?_, fun hx => ?_⟩
            · show ∃ f, IsDir (files (pc.conf (s.slot k).cwdVol) ((({ s with cur := i } : PSt).put v').vols (s.slot k).cwdVol)) (s.slot k).cwdIno f
              rw [e, hvv, h2]
              obtain ⟨f, hf, _⟩ := root_dir (hc.sys _ hv) (hc.posix _ hv) m3 hm'
              exact ⟨f, hf⟩
            · have hx : ((({ s with cur := i } : PSt).put v').vols (s.slot k).cwdVol).mounted = false := hx
              rw [e, hvv, hm'] at hx; cases hx
          · show upd s.gen i _ i ≤ 2047 ∧ (_ → 1 ≤ upd s.gen i _ i)
            rw [upd_same]
            show (if fdGenMax < s.gen i + 1 then 1 else s.gen i + 1) ≤ 2047 ∧ (_ → 1 ≤ (if fdGenMax < s.gen i + 1 then 1 else s.gen i + 1))
            rw [hgen]; exact ⟨hgn.1, fun _ => hgn.2⟩
          · intro j hj; show upd s.gen i _ j = _; rw [upd_other _ _ hj]
        · show upd s.gen i (if fdGenMax < s.gen i + 1 then 1 else s.gen i + 1) = upd s.gen i _
          rw [hgen]

omit hc hin hi in
theorem busy_iff {i : Nat} : busy pc i s = true ↔ VolInUse pc s i := by
  unfold busy VolInUse
  rw [any_iff]
  simp

/-- `red_umount2` -/
theorem pUmount_spec {path : List Byte} (hs : CStr.Ok path) (flags : Nat) :
    ∃ r s', pUmount pc path flags s = (r, s') ∧ PInv pc s' ∧ UmountDoes pc path flags s r s' := by
  unfold pUmount
  by_cases hf : flags &&& 1 ≠ flags
  · rw [if_pos hf]; exact ⟨_, _, rfl, hi, Or.inl ⟨(pair_and hc hi hin).1 hf, rfl, Quiet.refl _ _⟩⟩
  have hle : flags ≤ 1 := by have := mt (pair_and hc hi hin).2 hf; omega
  rw [if_neg hf, run_bind]
  rcases volumeLookup_spec hc hs s with ⟨s1, e1, q, h⟩ | ⟨i, e1, h⟩
  · rw [e1]; exact ⟨_, _, rfl, hi.quiet q, Or.inr (Or.inl ⟨hle, h, rfl, q⟩)⟩
  rw [e1]; dsimp only
  have hv : i < pc.n := h.1.1
  have q1 := quiet_cur hv s
  have hi1 := hi.quiet q1
  rw [run_bind, show curVol { s with cur := i } = (.ok (s.vols i), { s with cur := i }) from rfl]; dsimp only
  cases hm : (s.vols i).mounted with
  | false => rw [if_pos (by simp)]; exact ⟨_, _, rfl, hi1, Or.inr (Or.inr ⟨i, h, hle, Or.inl ⟨hm, rfl, q1⟩⟩)⟩
  | true =>
    rw [if_neg (by simp), run_bind, run_get]; dsimp only
    by_cases hb : flags &&& 1 = 0 ∧ busy pc i { s with cur := i } = true
    · rw [if_pos hb]
      have : VolInUse pc s i := busy_iff.1 hb.2
      refine ⟨_, _, rfl, hi1, Or.inr (Or.inr ⟨i, h, hle, Or.inr (Or.inl ⟨hm, ?_, this, rfl, q1⟩)⟩)⟩
      rw [← hb.1]; exact (not_not.1 hf).symm
    · rw [if_neg hb, run_bind, run_modify]; dsimp only
      obtain ⟨v', u1, u2, u3, u4⟩ := exec_unmount (hc.sys _ hv) (hi.reach _ hv) hm
      have e2 : onCur pc (fun _ => coreUnmount) { s with cur := i, handle := closeAll pc s i } = (.ok (), PSt.put { s with cur := i, handle := closeAll pc s i } v') := onCur_run u1
      unfold closeAll at e2
      rw [run_bind, e2]
      change ∃ r s'', (M.modify (fun s => cwdResetVol pc s.cur s) (PSt.put { s with cur := i, handle := closeAll pc s i } v')) = (r, s'') ∧ _
      rw [run_modify]
      have e3 : cwdResetVol pc i (PSt.put { s with cur := i, handle := closeAll pc s i } v') =
          { PSt.put { s with cur := i, handle := closeAll pc s i } v' with slot := cwdsReset pc s i } := by
        unfold cwdResetVol cwdsReset
        cases pc.cwd with
        | false => rw [if_neg (by simp)]; simp; rfl
        | true => rw [if_pos rfl]; simp; rfl
      have e4 : cwdResetVol pc (PSt.put { s with cur := i, handle := closeAll pc s i } v').cur (PSt.put { s with cur := i, handle := closeAll pc s i } v') =
          { PSt.put { s with cur := i, handle := closeAll pc s i } v' with slot := cwdsReset pc s i } := e3
      rw [e4]
      have hvo : ∀ j, j ≠ i → (PSt.put { s with cur := i, handle := closeAll pc s i } v').vols j = s.vols j := by intro j hj; rw [put_vols, if_neg hj]
      have hvv : (PSt.put { s with cur := i, handle := closeAll pc s i } v').vols i = v' := by rw [put_vols, if_pos rfl]
      refine ⟨_, _, rfl, ?_, Or.inr (Or.inr ⟨i, h, hle, Or.inr (Or.inr ⟨hm, fun h0 hu => ?_, rfl, ⟨?_, hvo⟩, rfl, rfl, rfl, rfl⟩)⟩)⟩
      · refine hi.replace hin hv hin hv hvo ?_ ?_ ?_ ?_ ?_ ?_ ?_ (fun _ _ => rfl)
        · show Reach _ ((PSt.put _ v').vols i); rw [hvv]; exact u3
        · intro k hk
          show (closeAll pc s i k).ino ≠ 0 → (closeAll pc s i k).vol = i → _
          unfold closeAll
          split
          · intro h0; exact absurd rfl h0
          · rename_i hx; intro h0 hvol; exact absurd ⟨hk, h0, hvol⟩ hx
        · intro k hk
          show (closeAll pc s i k).ino ≠ 0 → (closeAll pc s i k).vol ≠ i → closeAll pc s i k = s.handle k
          unfold closeAll
          split
          · intro h0; exact absurd rfl h0
          · intros; rfl
        · intro k hk
          show (cwdsReset pc s i k).task = _
          unfold cwdsReset; split <;> rfl
        · intro hcw k hk
          show (cwdsReset pc s i k).cwdVol = i → SlotOk pc _ (cwdsReset pc s i k)
          intro hvol
          have hvol0 : (s.slot k).cwdVol = i := by unfold cwdsReset at hvol; split at hvol <;> exact hvol
          have e5 : cwdsReset pc s i k = { s.slot k with cwdIno := 2 } := by unfold cwdsReset; rw [if_pos ⟨hcw, hk, hvol0⟩]
          rw [e5]
          refine ⟨by show (s.slot k).cwdVol < _; rw [hvol0]; exact hv, fun hx => ?_, fun _ => rfl⟩
          have hx : ((PSt.put { s with cur := i, handle := closeAll pc s i } v').vols (s.slot k).cwdVol).mounted = true := hx
          rw [hvol0, hvv, u4] at hx; cases hx
        · intro k hk
          show (cwdsReset pc s i k).cwdVol ≠ i → cwdsReset pc s i k = s.slot k
          unfold cwdsReset
          split
          · rename_i hx; intro h; exact absurd hx.2.2 h
          · intros; rfl
        · have := hi.gen i hv
          refine ⟨this.1, fun hx => ?_⟩
          have hx : ((PSt.put { s with cur := i, handle := closeAll pc s i } v').vols i).mounted = true := hx
          rw [hvv, u4] at hx; cases hx
      · exact hb ⟨by rw [h0]; rfl, busy_iff.2 hu⟩
      · rw [u2]; show (_, (PSt.put { s with cur := i, handle := closeAll pc s i } v').vols i) = _; rw [hvv]

/-- `red_rollback` -/
theorem pRollback_spec {path : List Byte} (hs : CStr.Ok path) :
    ∃ r s', pRollback pc path s = (r, s') ∧ PInv pc s' ∧ RollbackDoes pc path s r s' := by
  unfold pRollback
  rw [run_bind]
  rcases volumeLookup_spec hc hs s with ⟨s1, e1, q, h⟩ | ⟨i, e1, h⟩
  · rw [e1]; exact ⟨_, _, rfl, hi.quiet q, Or.inl ⟨h, rfl, q⟩⟩
  rw [e1]; dsimp only
  have hv : i < pc.n := h.1.1
  have q1 := quiet_cur hv s
  have hi1 := hi.quiet q1
  rw [run_bind, run_get]; dsimp only
  by_cases hb : busy pc i { s with cur := i } = true
  · rw [if_pos hb]
    have : VolInUse pc s i := busy_iff.1 hb
    exact ⟨_, _, rfl, hi1, Or.inr ⟨i, h, Or.inl ⟨this, rfl, q1⟩⟩⟩
  rw [if_neg hb]
  have hnu : ¬ VolInUse pc s i := fun hu => hb (busy_iff.2 hu)
  obtain ⟨r, v', u1, u2, u3, u4, u5, u6⟩ := exec_rollback (hc.sys _ hv) (hi.reach _ hv)
  rw [run_bind, onCur_run (m := fun c => coreVolRollback c) (s := { s with cur := i }) u1]
  have hvo : ∀ j, j ≠ i → (PSt.put { s with cur := i } v').vols j = s.vols j := by intro j hj; rw [put_vols, if_neg hj]
  have hvv : (PSt.put { s with cur := i } v').vols i = v' := by rw [put_vols, if_pos rfl]
  have cc : ((r.map fun _ => Reply.unit), (PSt.put { s with cur := i } v').vols i) = exec (pc.conf i) .rollback (s.vols i) := by rw [u2, hvv]
  rcases r with e | u
  · refine ⟨_, _, rfl, hi1.keep hin u3 u4 (u6 ⟨e, rfl⟩), Or.inr ⟨i, h, Or.inr ⟨hnu, ⟨cc, hvo⟩, rfl, rfl, rfl, rfl⟩⟩⟩
  · dsimp only
    rw [run_modify]
    have e3 : cwdResetVol pc i (PSt.put { s with cur := i } v') = { PSt.put { s with cur := i } v' with slot := cwdsReset pc s i } := by
      unfold cwdResetVol cwdsReset
      cases pc.cwd with
      | false => rw [if_neg (by simp)]; simp; rfl
      | true => rw [if_pos rfl]; simp; rfl
    rw [e3]
    have hm : (s.vols i).mounted = true := by
      cases hh : (s.vols i).mounted with
      | true => rfl
      | false => obtain ⟨e, he⟩ := u5 hh; cases he
    refine ⟨_, _, rfl, ?_, Or.inr ⟨i, h, Or.inr ⟨hnu, ⟨cc, hvo⟩, rfl, rfl, rfl, rfl⟩⟩⟩
    refine hi.replace hin hv hin hv hvo ?_ (fun k hk h0 e => absurd ⟨k, hk, h0, e⟩ hnu) (fun _ _ _ _ => rfl) ?_ ?_ ?_ ?_ (fun _ _ => rfl)
    · show Reach _ ((PSt.put _ v').vols i); rw [hvv]; exact u3
    · intro k hk
      show (cwdsReset pc s i k).task = _
      unfold cwdsReset; split <;> rfl
    · intro hcw k hk
      show (cwdsReset pc s i k).cwdVol = i → SlotOk pc _ (cwdsReset pc s i k)
      intro hvol
      have hvol0 : (s.slot k).cwdVol = i := by unfold cwdsReset at hvol; split at hvol <;> exact hvol
      have e5 : cwdsReset pc s i k = { s.slot k with cwdIno := 2 } := by unfold cwdsReset; rw [if_pos ⟨hcw, hk, hvol0⟩]
      rw [e5]
      refine ⟨by show (s.slot k).cwdVol < _; rw [hvol0]; exact hv, fun hx => ?_, fun _ => rfl⟩
      show ∃ f, IsDir (files (pc.conf (s.slot k).cwdVol) ((PSt.put { s with cur := i } v').vols (s.slot k).cwdVol)) 2 f
      rw [hvol0, hvv]
      obtain ⟨f, hf, _⟩ := root_dir (hc.sys _ hv) (hc.posix _ hv) u3 (u4.trans hm)
      exact ⟨f, hf⟩
    · intro k hk
      show (cwdsReset pc s i k).cwdVol ≠ i → cwdsReset pc s i k = s.slot k
      unfold cwdsReset
      split
      · rename_i hx; intro h; exact absurd hx.2.2 h
      · intros; rfl
    · have := hi.gen i hv
      exact ⟨this.1, fun _ => this.2 hm⟩

/-- `red_format` -/
theorem pFormat_spec {path : List Byte} (hs : CStr.Ok path) (h0 : ∀ i, Selected pc path i → (s.vols i).almostFree = 0 ∨ (s.vols i).mounted = true) :
    ∃ r s', (do let _ ← volumeLookup pc path; onCur pc fun c => apiFormat c : PM Unit) s = (r, s') ∧ PInv pc s' ∧ FormatDoes pc path s r s' := by
  rw [run_bind]
  rcases volumeLookup_spec hc hs s with ⟨s1, e1, q, h⟩ | ⟨i, e1, h⟩
  · rw [e1]; exact ⟨_, _, rfl, hi.quiet q, Or.inl ⟨h, rfl, q⟩⟩
  rw [e1]; dsimp only
  have hv : i < pc.n := h.1.1
  have q1 := quiet_cur hv s
  have hi1 := hi.quiet q1
  cases hm : (s.vols i).mounted with
  | true =>
    rw [onCur_off (m := fun c => apiFormat c) (s := { s with cur := i }) (r := .error .ebusy) (format_up hm)]
    exact ⟨_, _, rfl, hi1, Or.inr ⟨i, h, Or.inl ⟨hm, rfl, q1⟩⟩⟩
  | false =>
    have ha : (s.vols i).almostFree = 0 := by
      rcases h0 i h.1 with h | h
      · exact h
      · rw [hm] at h; cases h
    obtain ⟨v', f1, f2, f3, f4⟩ := format_typed (hc.sys _ hv) (hi.reach _ hv) hm ha
    rw [onCur_run (m := fun c => apiFormat c) (s := { s with cur := i }) f1]
    have hvv : (PSt.put { s with cur := i } v').vols i = v' := by rw [put_vols, if_pos rfl]
    refine ⟨_, _, rfl, hi1.keep hin f2 (by rw [f3]; exact hm.symm) (fun h => by rw [show (PSt.v { s with cur := i }).mounted = false from hm] at h; cases h),
      Or.inr ⟨i, h, Or.inr ⟨hm, rfl, fun j hj => by rw [put_vols, if_neg hj], ⟨rfl, rfl, rfl, rfl⟩, ?_, ?_⟩⟩⟩
    · rw [hvv]; exact f3
    · rw [hvv]; exact f4

omit hi hin in
theorem syncLoop_spec (n : Nat) (hn : n ≤ pc.n) : ∀ {s : PSt}, PInv pc s → 
    ∃ s', syncLoop pc n s = (.ok (), s') ∧ PInv pc s' ∧ SameRest s s' ∧ ∀ i, i < pc.n →
      if i < n ∧ (s.vols i).mounted = true ∧ (s.vols i).readOnly = false ∧ (s.vols i).transMask.testBit Event.sync.bit = true then
        (s'.vols i).mounted = true ∧ (s'.vols i).readOnly = false ∧ (s'.vols i).transMask = (s.vols i).transMask ∧
        s'.files pc i = s.files pc i ∧ Committed pc s' i
      else Same (pc.conf i) (s.vols i) (s'.vols i) := by
  induction n with
  | zero =>
    intro s hi
    refine ⟨s, rfl, hi, ⟨rfl, rfl, rfl, rfl⟩, fun i _ => ?_⟩
    rw [if_neg (fun h => Nat.not_lt_zero _ h.1)]; exact Same.refl _ _
  | succ n ih =>
    intro s hi
    obtain ⟨s1, e1, hi1, R1, H1⟩ := ih (by omega) hi
    have hv : n < pc.n := hn
    unfold syncLoop
    rw [run_bind, run_attempt, e1]; dsimp only
    rw [run_bind, run_get]; dsimp only
    have H1n := H1 n hv
    rw [if_neg (fun h => Nat.lt_irrefl _ h.1)] at H1n
    rw [H1n.mounted, H1n.ro]
    cases hg : ((s.vols n).mounted && !(s.vols n).readOnly) with
    | false =>
      rw [if_neg (by simp)]
      refine ⟨s1, rfl, hi1, R1, fun i hi' => ?_⟩
      have := H1 i hi'
      by_cases e : i = n
      · subst e
        rw [if_neg ?_]; exact H1n
        rintro ⟨_, a, b, _⟩
        rw [a, b] at hg; cases hg
      · by_cases hx : i < n + 1 ∧ (s.vols i).mounted = true ∧ (s.vols i).readOnly = false ∧ (s.vols i).transMask.testBit Event.sync.bit = true
        · rw [if_pos hx]; rw [if_pos ⟨by omega, hx.2⟩] at this; exact this
        · rw [if_neg hx]; rw [if_neg (fun h => hx ⟨by omega, h.2⟩)] at this; exact this
    | true =>
      rw [if_pos rfl]
      simp only [Bool.and_eq_true, Bool.not_eq_true'] at hg
      have hm1 : (s1.vols n).mounted = true := H1n.mounted.trans hg.1
      have hro1 : (s1.vols n).readOnly = false := H1n.ro.trans hg.2
      obtain ⟨r, s2, e2, hi2, hh2, _, hx⟩ := transactIf_spec hc hi1 (quiet_cur hv s1) rfl hm1 .sync
      have e3 : (do setCur pc n; transactIf pc .sync : PM Unit) s1 = (r, s2) := by rw [run_bind, setCur_ok hv]; exact e2
      rcases hx with ⟨_, hro, _⟩ | ⟨_, rfl, F, ho⟩
      · rw [hro1] at hro; cases hro
      rw [run_bind, run_attempt, e3]; dsimp only
      obtain ⟨o, F⟩ := F
      rw [H1n.mask] at F
      refine ⟨s2, rfl, hi2, ⟨o.inited.trans R1.inited, hh2.trans R1.handle, o.slot.trans R1.slot, o.gen.trans R1.gen⟩, fun i hi' => ?_⟩
      have := H1 i hi'
      by_cases e : i = n
      · subst e
        have hf1 : s2.files pc i = s.files pc i := (show s2.files pc i = s1.files pc i from o.rel).trans (H1n.files hg.1)
        by_cases hx : i < i + 1 ∧ (s.vols i).mounted = true ∧ (s.vols i).readOnly = false ∧ (s.vols i).transMask.testBit Event.sync.bit = true
        · rw [if_pos hx]
          rw [hx.2.2.2, if_pos rfl] at F
          exact ⟨o.up', o.ro.trans hro1, o.mask.trans H1n.mask, hf1, F⟩
        · rw [if_neg hx]
          have hbit : (s.vols i).transMask.testBit Event.sync.bit = false := by
            cases hb : (s.vols i).transMask.testBit Event.sync.bit with
            | false => rfl
            | true => exact absurd ⟨Nat.lt_succ_self _, hg.1, hg.2, hb⟩ hx
          rw [hbit, if_neg (by simp)] at F
          refine H1n.trans ⟨fun _ => hi2.reach i hv, o.up'.trans hm1.symm, o.ro, o.mask, fun _ => o.rel, fun _ => F, (fun h => by rw [hm1] at h; cases h)⟩
      · have hvi : s2.vols i = s1.vols i := ho i e
        have hF : s2.files pc i = s1.files pc i := by unfold PSt.files; rw [hvi]
        have hC : Committed pc s2 i ↔ Committed pc s1 i := by unfold Committed PSt.files; rw [hvi]
        rw [hvi, hF, hC]
        by_cases hx : i < n + 1 ∧ (s.vols i).mounted = true ∧ (s.vols i).readOnly = false ∧ (s.vols i).transMask.testBit Event.sync.bit = true
        · rw [if_pos hx]; rw [if_pos ⟨by omega, hx.2⟩] at this; exact this
        · rw [if_neg hx]; rw [if_neg (fun h => hx ⟨by omega, h.2⟩)] at this; exact this

omit hin in
/-- `red_sync` -/
theorem pSync_spec : ∃ r s', syncLoop pc pc.n s = (r, s') ∧ PInv pc s' ∧ SyncDoes pc s r s' := by
  obtain ⟨s', e, i, R, H⟩ := syncLoop_spec hc pc.n (Nat.le_refl _) hi
  refine ⟨_, s', e, i, rfl, R, fun j hj => ?_⟩
  have := H j hj
  simp only [hj, true_and] at this
  exact this

omit hc in
/-- `red_uninit` -/
theorem pUninit_spec (t : Nat) : ∃ r s', body pc t .uninit s = (r.map fun _ => .unit, s') ∧ PInv pc s' ∧ UninitDoes pc s r s' := by
  show ∃ r s', (do let s ← M.get; if (List.range pc.n).any (fun i => (s.vols i).mounted) then fail .ebusy else do
      modify fun s => { s with inited := false }
      pure .unit : PM PReply) s = _ ∧ _
  rw [run_bind, run_get]; dsimp only
  by_cases h : (List.range pc.n).any (fun i => (s.vols i).mounted) = true
  · rw [if_pos h]
    have hx : ∃ i, i < pc.n ∧ (s.vols i).mounted = true := any_iff.1 h
    exact ⟨.error .ebusy, s, rfl, hi, (fun _ => ⟨rfl, rfl⟩), fun h => absurd hx h⟩
  · rw [if_neg h]
    have hx : ¬ ∃ i, i < pc.n ∧ (s.vols i).mounted = true := fun hx => h (any_iff.2 hx)
    refine ⟨.ok (), { s with inited := false }, rfl, ?_, (fun h => absurd h hx), fun _ => ⟨rfl, rfl⟩⟩
    refine ⟨hi.reach, hi.cur, fun _ i hn => ?_, (fun h => by cases h), (fun h => by cases h), (fun h => by cases h), hi.gen⟩
    cases hm : (s.vols i).mounted with
    | false => rfl
    | true => exact absurd ⟨i, hn, hm⟩ hx

omit hin in
/-- `red_init` -/
theorem redInit_spec : PInv pc (redInit pc s) := by
  unfold redInit
  by_cases hinx : s.inited = true
  · rw [if_pos hinx]; exact hi
  · have hin : s.inited = false := by simpa using hinx
    rw [if_neg hinx]
    have hdown := hi.down hin
    have e : ∀ x : PSt, ∃ sl, cwdResetAll pc x = { x with slot := sl } ∧ (∀ i, (sl i).task = (x.slot i).task) ∧ (pc.cwd = true → ∀ i, i < pc.tasks → (sl i).cwdVol = 0 ∧ (sl i).cwdIno = 2) := by
      intro x
      unfold cwdResetAll
      cases hcw : pc.cwd with
      | false => rw [if_neg (by simp)]; exact ⟨_, rfl, fun _ => rfl, fun h => by cases h⟩
      | true =>
        rw [if_pos rfl]
        refine ⟨_, rfl, fun i => ?_, fun _ i hi => ?_⟩
        · dsimp only; split <;> rfl
        · dsimp only; rw [if_pos hi]; exact ⟨rfl, rfl⟩
    obtain ⟨sl, e1, e2, e3⟩ := e { s with
        handle := fun i => if i < pc.handles then ⟨0, 0, false, false, false, false, 0⟩ else s.handle i
        slot := fun i => if i < pc.tasks then ⟨0, none, 0, 0⟩ else s.slot i
        vols := fun i => if i < pc.n then coreInit pc.transDefault (s.vols i) else s.vols i }
    rw [e1]
    have hvm : ∀ i, i < pc.n → (if i < pc.n then coreInit pc.transDefault (s.vols i) else s.vols i).mounted = false := by
      intro i h; rw [if_pos h]; rfl
    refine ⟨fun i h => ?_, hi.cur, (fun h => by cases h), fun _ i h h0 => ?_, fun _ hcw i h => ?_, fun _ i j hi' hj' ht h0 => ?_, fun i h => ⟨(hi.gen i h).1, fun hx => ?_⟩⟩
    · dsimp only; rw [if_pos h]; exact init_reach (hi.reach i h) (hdown i h) _
    · exact absurd (by dsimp only; rw [if_pos h]) h0
    · obtain ⟨a, b⟩ := e3 hcw i h
      dsimp only
      have h0 : 0 < pc.n := hc.n.1
      refine ⟨by rw [a]; exact h0, fun hx => ?_, fun _ => b⟩
      rw [a] at hx
      have := hvm 0 h0
      exact absurd hx (by dsimp only; rw [this]; simp)
    · exact absurd (by show (sl i).task = 0; rw [e2]; dsimp only; rw [if_pos hi']) h0
    · have := hvm i h
      dsimp only at hx
      rw [this] at hx; cases hx

end

end RedFs.Posix
