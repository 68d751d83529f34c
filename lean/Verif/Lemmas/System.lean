import Verif.Lemmas.RenameAll
import Verif.Lemmas.Format
import Verif.Spec.System
set_option linter.unusedSimpArgs false
set_option linter.unusedVariables false
/-!
The model refines the abstract file system.
-/
namespace RedFs
open M Bitmap Vol

variable {c : Conf}

/-- The files are those of a sound file system. -/
def Sound (c : Conf) (F : Files) : Prop :=
  if c.posix = true then NsOk c F else ∀ i, c.inodeValid i = true → ∃ f, Spec.IsReg F i f

theorem Sound.posix (h : c.posix = true) : Sound c = NsOk c := by
  funext F; unfold Sound; rw [if_pos h]

theorem sound_data : PData (Sound c) := by
  cases hp : c.posix
  · intro F i f f' h hi hm h1 h2 h3
    unfold Sound at h ⊢
    rw [hp] at h ⊢
    simp only [Bool.false_eq_true, if_false] at h ⊢
    intro j hj
    by_cases hji : j = i
    · exact ⟨f', by rw [hji, Files.set_same], by rw [h1, hm]⟩
    · obtain ⟨g, g1, g2⟩ := h j hj
      exact ⟨g, by rw [Files.set_other _ _ hji]; exact g1, g2⟩
  · rw [Sound.posix hp]; exact ns_data

theorem sound_formatted (hc : c.SysOk) : Sound c (formatted c) := by
  unfold Sound
  by_cases hp : c.posix = true
  · rw [if_pos hp]
    have hF : ∀ i, formatted c i = if i = 2 then some (AFile.new modeDir 0) else none := by
      intro i; unfold formatted; rw [if_pos hp]
    have hE : ∀ p k, entOf c (formatted c) p k = none := by
      intro p k
      unfold entOf; rw [hF]
      by_cases h2 : p = 2
      · rw [if_pos h2]
        have hz : entAt c (AFile.new modeDir 0) k = none := by
          unfold entAt
          refine if_neg (fun h1 => ?_)
          have h1 := h1.1
          have : (AFile.new modeDir 0).size = dirSize c 0 := rfl
          rw [this, offIdx_dirSize (hc.posixOk hp)] at h1; omega
        dsimp only
        rw [hz]; exact ite_self _
      · rw [if_neg h2]
    refine ⟨?_, ?_⟩
    · intro p f hd
      have h1 := hd.1
      rw [hF] at h1
      by_cases h2 : p = 2
      · rw [if_pos h2] at h1; injection h1 with h1
        subst h1
        have hdf : DirFile c (AFile.new modeDir 0) ⟨0, fun _ => none⟩ :=
          ⟨rfl, rfl, fun off => by show 0 = dirByte c _ off; unfold dirByte; split <;> rfl⟩
        have hok0 : DirOk c ⟨0, fun _ => none⟩ := ⟨Nat.zero_le _, fun _ _ => rfl, fun h => absurd h (Nat.lt_irrefl 0), (fun _ _ _ h => by cases h), (fun _ _ _ h => by cases h), (fun _ _ _ _ _ h => by cases h)⟩
        rw [hdf.dirOf hc.ok (hc.posixOk hp) hok0]; exact ⟨hdf, hok0⟩
      · rw [if_neg h2] at h1; cases h1
    · have hs : ∀ p k, (graphOf c (formatted c)).slot p k = none := by
        intro p k; show (entOf c (formatted c) p k).map _ = none; rw [hE]; rfl
      have hn : ∀ i nd, (graphOf c (formatted c)).node i = some nd → i = 2 ∧ nd = ⟨true, 1, 0⟩ := by
        intro i nd h
        have h : (formatted c i).map _ = some nd := h
        rw [hF] at h
        by_cases h2 : i = 2
        · rw [if_pos h2] at h; injection h with h; exact ⟨h2, h.symm⟩
        · rw [if_neg h2] at h; cases h
      refine ⟨?_, ?_, ?_, ?_, ?_, ?_, ?_⟩
      · show (formatted c 2).map _ = _; rw [hF]; rfl
      · intro p k i h; rw [hs] at h; cases h
      · intro p k i h; rw [hs] at h; cases h
      · intro i nd h h2; exact absurd (hn i nd h).1 h2
      · intro i nd h _; rw [(hn i nd h).2]
      · intro p k i nd h; rw [hs] at h; cases h
      · intro i nd h _; rw [(hn i nd h).1]; exact ⟨0, .root⟩
  · rw [if_neg hp]
    intro i hi
    refine ⟨AFile.new modeReg 0, ?_, rfl⟩
    unfold formatted; rw [if_neg hp, if_pos hi]

/-! ### the relation between the model and the abstract file system -/

/-- The volume `v` is in the state `s`. -/
inductive Abs (c : Conf) (v : Vol) (s : Sys) : Prop
  | up : s.mounted = true → Inv c (Sound c) v → s.now = files c v → s.disk = some (committedFiles c v) → s.ro = v.readOnly → s.mask = v.transMask → Abs c v s
  | off {m : Metaroot} : s.mounted = false → Off c (Sound c) v m → s.disk = some (stFiles c v.base m) → s.mask = v.transMask → Abs c v s
  | none : s.mounted = false → Blank c v → s.disk = none → s.mask = v.transMask → Abs c v s

/-- A power loss in epoch `e` leaves one of the states `S`. -/
def Recov (c : Conf) (e : Epoch) (S : List (Option Files)) : Prop :=
  ∀ D, CrashImage c e D → ∀ w, Boot w D → ∃ s, Abs c w s ∧ s.mounted = false ∧ s.disk ∈ S

theorem Recov.mono {e : Epoch} {S S' : List (Option Files)} (h : Recov c e S) (hS : ∀ x ∈ S, x ∈ S') : Recov c e S' :=
  fun D hD w hw => by obtain ⟨s, h1, h2, h3⟩ := h D hD w hw; exact ⟨s, h1, h2, hS _ h3⟩

/-- `CrashImage` does not depend on the metaroots recorded in the epoch. -/
theorem CrashImage.congr {e e' : Epoch} {D : Nat → Blk} (h : CrashImage c e D) (h1 : e'.base = e.base) (h2 : e'.dirty = e.dirty) (h3 : e'.fin = e.fin) :
    CrashImage c e' D := ⟨by rw [h1, h2]; exact h.kept, by rw [h1, h2, h3]; exact h.metaroot⟩

theorem recov_good (hc : c.Ok) {e : Epoch} (he : EpochOk c e) (hg : EGood c (Sound c) e) {S : List (Option Files)}
    (h1 : some (stFiles c e.base e.comm) ∈ S) (h2 : ∀ m, e.next = some m → some (stFiles c e.base m) ∈ S) : Recov c e S := by
  intro D hD w hw
  obtain ⟨m, ho, hm⟩ := hg.off hc he hD hw.conn hw.hist hw.mounted
  refine ⟨⟨false, false, w.transMask, fun _ => none, some (stFiles c w.base m)⟩, .off rfl ho rfl rfl, rfl, ?_⟩
  rcases hm with hm | ⟨m', hn, hm⟩
  · rw [hm]; exact h1
  · rw [hm]; exact h2 m' hn

/-- A power loss while nothing goes on. -/
theorem Abs.idle (hc : c.Ok) {v : Vol} {s : Sys} (h : Abs c v s) : Recov c v.epoch [s.disk] := by
  cases h with
  | up hm hi hn hd hr hk =>
    refine recov_good hc (hi.wf.vol.epoch_ok hc hi.mounted) (hi.epoch_good hc) ?_ (fun m hm => by cases hm)
    rw [show stFiles c v.epoch.base v.epoch.comm = committedFiles c v from hi.comm_files hc, hd]; exact List.mem_singleton.2 rfl
  | off hm ho hd hk =>
    intro D hD w hw
    exact recov_good hc ho.epoch_ok ho.epoch_good (S := [s.disk]) (by rw [hd]; exact List.mem_singleton.2 rfl) (fun m hm => by cases hm)
      D (hD.congr rfl rfl rfl) w hw
  | none hm hb hd hk =>
    obtain ⟨D0, hb, hno⟩ := hb
    obtain ⟨b1, b2, b3⟩ := hb.conn
    intro D hD w hw
    have : D 0 = D0 0 := by
      rw [hD.kept 0 (by show v.dirty 0 = false; rw [b3])]; show v.base 0 = _; rw [b2]
    refine ⟨⟨false, false, w.transMask, fun _ => .none, .none⟩, .none rfl ⟨D, hw, ?_⟩ rfl rfl, rfl, ?_⟩
    · rw [this]; exact hno
    · rw [hd]; exact List.mem_singleton.2 rfl

/-- The epochs of a commit. -/
theorem Inv.commit_recov (hc : c.Ok) {v v' : Vol} (h : Inv c (Sound c) v) (h' : Inv c (Sound c) v') (C : Cmtd c v v') :
    ∃ new, v'.hist = new ++ v.hist ∧ ∀ e ∈ new, Recov c e [some (committedFiles c v), some (files c v)] := by
  rcases C.epochs with rfl | ⟨e2, e1, hh, h1, h2, m, h3, h4⟩
  · exact ⟨[], rfl, fun e he => by cases he⟩
  · refine ⟨[e2, e1], by rw [hh]; rfl, ?_⟩
    intro e he
    have hin : e ∈ v'.hist := by rw [hh]; simp at he ⊢; tauto
    refine recov_good hc (h'.wf.vol.epochs h'.mounted e hin) (h'.hist e hin) ?_ ?_
    · rcases List.mem_cons.1 he with rfl | he
      · rw [h2]; simp
      · rw [List.mem_singleton.1 he, h1, show stFiles c v.epoch.base v.epoch.comm = committedFiles c v from h.comm_files hc]; simp
    · intro m' hm'
      rcases List.mem_cons.1 he with rfl | he
      · rw [h3] at hm'; injection hm' with hm'; rw [← hm', h4]; simp
      · rw [List.mem_singleton.1 he, h1] at hm'; cases hm'

/-- The simulation of one call. -/
def Sim (c : Conf) (k : Call) (v : Vol) (s : Sys) : Prop :=
  ∃ r v' s' tr, exec c k v = (r, v') ∧ Spec.Does c k s r s' tr ∧ Abs c v' s' ∧
    ∃ new, v'.hist = new ++ v.hist ∧ ∀ e ∈ new, Recov c e (s.disk :: tr.map some)

theorem reply_run {α : Type} {f : α → Reply} {m : VM α} {v v' : Vol} {r : Except Err α} (h : m v = (r, v')) :
    reply f m v = (r.map f, v') := by
  unfold reply; rw [run_bind, h]; cases r <;> rfl

/-- The result of a modifying call. -/
theorem sim_modify (hc : c.Ok) {α : Type} {f : α → Reply} {ev : Event} {m : VM α} {R : Files → Except Err α → Files → Prop} {W : Nat → Prop}
    (hm : OpSpec c (Sound c) m R W) (hR : Clean R) {v : Vol} {s : Sys} (ha : Abs c v s) :
    ∃ r v' s' tr, reply f (modifyingOp ev m) v = (r, v') ∧ Spec.Modify ev (Spec.Via f R) s r s' tr ∧ Abs c v' s' ∧
      ∃ new, v'.hist = new ++ v.hist ∧ ∀ e ∈ new, Recov c e (s.disk :: tr.map some) := by
  have off : s.mounted = false → v.mounted = false → ∃ r v' s' tr, reply f (modifyingOp ev m) v = (r, v') ∧ Spec.Modify ev (Spec.Via f R) s r s' tr ∧ Abs c v' s' ∧
      ∃ new, v'.hist = new ++ v.hist ∧ ∀ e ∈ new, Recov c e (s.disk :: tr.map some) := by
    intro h1 h2
    refine ⟨.error .einval, v, s, [], ?_, ?_, ha, [], rfl, fun e he => by cases he⟩
    · refine reply_run (r := .error .einval) ?_
      unfold modifyingOp whenRw; simp only [run_bind, run_get, h2]; rfl
    · unfold Spec.Modify; rw [if_pos h1]; exact ⟨rfl, rfl, rfl⟩
  cases ha with
  | none h1 h2 h3 => obtain ⟨D, hb, _⟩ := h2; exact off h1 hb.mounted
  | off h1 h2 h3 => exact off h1 h2.mounted
  | up h1 hi hn hd hro hmk =>
    clear off
    cases hr : v.readOnly
    · obtain ⟨r, v', e, O⟩ := modifyingOp_spec hc (ev := ev) hm hR hi hr
      have hon : ∀ x, s.on x = v.on x := fun x => by unfold Sys.on Vol.on; rw [hmk]
      obtain ⟨r1, v1, e1, E1, how⟩ := O.how
      have hcf1 := E1.cfiles hc hi
      -- the last part of the call: from `w` (after the last attempt) to `v'`
      have fin : ∀ (w : Vol) (pre : List Files), Inv c (Sound c) w → files c w = files c v' →
          ((∃ e, r = .error e ∧ v' = w) ∨ ∃ a, r = .ok a ∧ ((v.on ev = true ∧ volTransact w = (.ok (), v') ∧ Cmtd c w v') ∨ (v.on ev = false ∧ v' = w))) →
          (∃ new, w.hist = new ++ v.hist ∧ ∀ e ∈ new, Recov c e (s.disk :: pre.map some)) → (s.commit pre).disk = some (committedFiles c w) →
          (pre = [] ∨ pre = [s.now] ∧ s.on .volfull = true ∧ Spec.Via f R s.now (.error .enospc) s.now) →
          ∃ s' tr, Spec.Modify ev (Spec.Via f R) s (r.map f) s' tr ∧ Abs c v' s' ∧
            ∃ new, v'.hist = new ++ v.hist ∧ ∀ e ∈ new, Recov c e (s.disk :: tr.map some) := by
        intro w pre hw hfw hlast ⟨new, hnew, hrec⟩ hdisk hpre
        have mk : ∀ post, post = (if (r.map f).toBool = true ∧ s.on ev = true then [files c v'] else []) →
            some (committedFiles c v') = (s.commit (pre ++ post)).disk →
            (∃ new', v'.hist = new' ++ w.hist ∧ ∀ e ∈ new', Recov c e (s.disk :: (pre ++ post).map some)) →
            ∃ s' tr, Spec.Modify ev (Spec.Via f R) s (r.map f) s' tr ∧ Abs c v' s' ∧
              ∃ new, v'.hist = new ++ v.hist ∧ ∀ e ∈ new, Recov c e (s.disk :: tr.map some) := by
          intro post hpost hd' ⟨new', hn', hr'⟩
          refine ⟨{ s.commit (pre ++ post) with now := files c v' }, pre ++ post, ?_, ?_, new' ++ new, ?_, ?_⟩
          · unfold Spec.Modify
            rw [if_neg (by rw [h1]; simp), if_neg (by rw [hro, hr]; simp)]
            refine ⟨pre, files c v', hpre, ?_, by rw [← hpost], rfl⟩
            rw [hn]; exact ⟨r, rfl, O.rel⟩
          · refine .up h1 O.inv rfl hd'.symm ?_ ?_
            · show s.ro = _; rw [hro, hr, O.readOnly]
            · show s.mask = _; rw [hmk, O.mask]
          · rw [hn', hnew, List.append_assoc]
          · intro e he
            rcases List.mem_append.1 he with he | he
            · exact hr' e he
            · refine (hrec e he).mono ?_
              intro x hx
              simp only [List.mem_cons, List.map_append, List.mem_append] at hx ⊢
              tauto
        have nop : v' = w → (r.map f).toBool = false ∨ s.on ev = false → ∃ s' tr, Spec.Modify ev (Spec.Via f R) s (r.map f) s' tr ∧ Abs c v' s' ∧
              ∃ new, v'.hist = new ++ v.hist ∧ ∀ e ∈ new, Recov c e (s.disk :: tr.map some) := by
          intro hvw hcase
          refine mk [] ?_ ?_ ⟨[], by rw [hvw]; rfl, fun e he => by cases he⟩
          · rw [if_neg]; rintro ⟨x1, x2⟩; rcases hcase with hh | hh
            · rw [hh] at x1; cases x1
            · rw [hh] at x2; cases x2
          · rw [List.append_nil, hvw, hdisk]
        rcases hlast with ⟨e, hre, hvw⟩ | ⟨a, hra, ⟨hev, ht, C⟩ | ⟨hev, hvw⟩⟩
        · exact nop hvw (Or.inl (by rw [hre]; rfl))
        · refine mk [files c v'] ?_ ?_ ?_
          · rw [if_pos ⟨by rw [hra]; rfl, by rw [hon]; exact hev⟩]
          · rw [C.cfiles, hfw]; unfold Sys.commit; simp
          · obtain ⟨new', hn', hr'⟩ := hw.commit_recov hc O.inv C
            refine ⟨new', hn', fun e he => (hr' e he).mono ?_⟩
            intro x hx
            have hx : x = some (committedFiles c w) ∨ x = some (files c w) := by simpa using hx
            rcases hx with rfl | rfl
            · rw [← hdisk]
              rcases hpre with rfl | ⟨rfl, _, _⟩
              · exact List.mem_cons.2 (Or.inl rfl)
              · unfold Sys.commit; simp
            · rw [hfw]; simp
        · exact nop hvw (Or.inr (by rw [hon]; exact hev))
      have hfiles : ∀ w, ((∃ e, r = .error e ∧ v' = w) ∨ ∃ a, r = .ok a ∧ ((v.on ev = true ∧ volTransact w = (.ok (), v') ∧ Cmtd c w v') ∨ (v.on ev = false ∧ v' = w))) →
          files c w = files c v' := by
        intro w hlast
        rcases hlast with ⟨e, hre, hvw⟩ | ⟨a, hra, ⟨hev, ht, C⟩ | ⟨hev, hvw⟩⟩
        · rw [hvw]
        · exact C.files.symm
        · rw [hvw]
      have : ∃ s' tr, Spec.Modify ev (Spec.Via f R) s (r.map f) s' tr ∧ Abs c v' s' ∧
            ∃ new, v'.hist = new ++ v.hist ∧ ∀ e ∈ new, Recov c e (s.disk :: tr.map some) := by
        rcases how with ⟨g1, g2, g3, g4, v2, v3, g5, C, i2, g6, E3, _, hlast⟩ | ⟨g1, g2, g3, hlast⟩
        · refine fin v3 [s.now] E3.inv (hfiles v3 hlast) hlast ?_ ?_ ?_
          · obtain ⟨new, hn1, hn2⟩ := E1.inv.commit_recov hc i2 C
            refine ⟨new, by rw [E3.step.hist, hn1, E1.step.hist], fun e he => (hn2 e he).mono ?_⟩
            intro x hx
            have hx : x = some (committedFiles c v1) ∨ x = some (files c v1) := by simpa using hx
            rcases hx with rfl | rfl
            · rw [hcf1, ← hd]; simp
            · rw [g4, ← hn]; simp
          · rw [E3.cfiles hc i2, C.cfiles, g4]; unfold Sys.commit; simp [hn]
          · refine Or.inr ⟨rfl, ?_, .error .enospc, rfl, ?_⟩
            · rw [hon]; rw [show v.on .volfull = v1.on .volfull from by unfold Vol.on; rw [E1.step.transMask]]; exact g2
            · obtain ⟨r1', v1', e1', _, R1'⟩ := hm v hi hr
              rw [e1] at e1'
              obtain ⟨rfl, rfl⟩ := Prod.mk.inj e1'
              rw [g1, g4, ← hn] at R1'; exact R1'
        · refine fin v1 [] E1.inv (hfiles v1 hlast) hlast ⟨[], E1.step.hist, fun e he => by cases he⟩ ?_ (Or.inl rfl)
          unfold Sys.commit; rw [hcf1]; exact hd
      obtain ⟨s', tr, h2, h3, h4⟩ := this
      exact ⟨r.map f, v', s', tr, reply_run e, h2, h3, h4⟩
    · refine ⟨.error .erofs, v, s, [], ?_, ?_, .up h1 hi hn hd hro hmk, [], rfl, fun e he => by cases he⟩
      · refine reply_run (r := .error .erofs) ?_
        unfold modifyingOp whenRw; simp only [run_bind, run_get, hi.mounted, hr]; rfl
      · unfold Spec.Modify; rw [if_neg (by rw [h1]; simp), if_pos (by rw [hro, hr])]; exact ⟨rfl, rfl, rfl⟩

/-- The result of a query. -/
theorem sim_ask (hc : c.Ok) {α : Type} {f : α → Reply} {m : VM α} {Q : Files → Except Err α → Prop} {v : Vol} {s : Sys} (ha : Abs c v s)
    (hm : Inv c (Sound c) v → ∃ r v', m v = (r, v') ∧ Eff c (Sound c) v v' ∧ files c v' = files c v ∧ Q (files c v) r)
    (ho : v.mounted = false → m v = (.error .einval, v)) :
    ∃ r v' s' tr, reply f m v = (r, v') ∧ Spec.Ask (Spec.ViaQ f Q) s r s' tr ∧ Abs c v' s' ∧
      ∃ new, v'.hist = new ++ v.hist ∧ ∀ e ∈ new, Recov c e (s.disk :: tr.map some) := by
  have off : s.mounted = false → v.mounted = false → ∃ r v' s' tr, reply f m v = (r, v') ∧ Spec.Ask (Spec.ViaQ f Q) s r s' tr ∧ Abs c v' s' ∧
      ∃ new, v'.hist = new ++ v.hist ∧ ∀ e ∈ new, Recov c e (s.disk :: tr.map some) := by
    intro h1 h2
    refine ⟨.error .einval, v, s, [], reply_run (ho h2), ⟨rfl, rfl, ?_⟩, ha, [], rfl, fun e he => by cases he⟩
    rw [if_pos h1]
  cases ha with
  | none h1 h2 h3 => obtain ⟨D, hb, _⟩ := h2; exact off h1 hb.mounted
  | off h1 h2 h3 => exact off h1 h2.mounted
  | up h1 hi hn hd hro hmk =>
    obtain ⟨r, v', e, E, hf, hq⟩ := hm hi
    refine ⟨r.map f, v', s, [], reply_run e, ⟨rfl, rfl, ?_⟩, ?_, [], E.step.hist, fun e he => by cases he⟩
    · rw [if_neg (by rw [h1]; simp), hn]; exact ⟨r, rfl, hq⟩
    · exact .up h1 E.inv (by rw [hf, hn]) (by rw [E.cfiles hc hi, hd]) (by rw [E.readOnly, hro]) (by rw [E.step.transMask, hmk])

theorem whenMounted_off {α : Type} {m : VM α} {v : Vol} (h : v.mounted = false) : whenMounted m v = (.error .einval, v) := by
  unfold whenMounted; simp only [run_bind, run_get, h]; rfl
theorem whenRw_off {α : Type} {m : VM α} {v : Vol} (h : v.mounted = false) : whenRw m v = (.error .einval, v) := by
  unfold whenRw; simp only [run_bind, run_get, h]; rfl
theorem whenRw_ro {α : Type} {m : VM α} {v : Vol} (h : v.mounted = true) (h' : v.readOnly = true) : whenRw m v = (.error .erofs, v) := by
  unfold whenRw; simp only [run_bind, run_get, h, h']; rfl

end RedFs
