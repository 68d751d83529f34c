import Verif.Lemmas.PosixOps
set_option linter.unusedSimpArgs false
set_option linter.unusedVariables false
set_option linter.unusedSectionVars false
/-!
The calls that work on paths.
-/
namespace RedFs.Posix
open M Str Path Spec

variable {pc : PConf} {s s' s'' : PSt}

theorem any_iff {n : Nat} {p : Nat → Bool} : (List.range n).any p = true ↔ ∃ k, k < n ∧ p k = true := by
  simp [List.any_eq_true]

theorem inUse_iff {vol i : Nat} : InUse pc s vol i ↔
    ((List.range pc.handles).any (fun k => (s.handle k).ino == i && (s.handle k).vol == vol) = true ∨
     (pc.cwd && (List.range pc.tasks).any fun k => (s.slot k).cwdIno == i && (s.slot k).cwdVol == vol) = true) := by
  unfold InUse
  rw [any_iff, Bool.and_eq_true, any_iff]
  simp

/-- `InodeUnlinkCheck` -/
theorem unlinkCheck_spec (hc : pc.Ok) (hi : PInv pc s) (hm : s.v.mounted = true) {i : Nat} (hf : s.F pc i ≠ none) :
    ∃ r s', inodeUnlinkCheck pc i s = (r, s') ∧ Asked pc s s' ∧ ((r = .ok () ∧ ¬ Held pc s s.cur i) ∨ (r = .error .ebusy ∧ Held pc s s.cur i)) := by
  unfold inodeUnlinkCheck
  obtain ⟨r, s1, e, a, q⟩ := onStat hc hi hm i
  rw [run_bind, e]
  rcases r with x | st
  · exact absurd q.2 hf
  obtain ⟨f, h1, _, _, h2, _⟩ := q
  dsimp only
  rw [run_bind, run_get]
  dsimp only
  rw [a.quiet.handle, a.quiet.slot, a.cur]
  by_cases hn : st.nlink = 1
  · rw [if_pos hn]
    by_cases hu : (List.range pc.handles).any (fun k => (s.handle k).ino == i && (s.handle k).vol == s.cur) = true
    · rw [if_pos hu]
      exact ⟨_, _, rfl, a, Or.inr ⟨rfl, inUse_iff.2 (Or.inl hu), f, h1, h2.symm.trans hn⟩⟩
    · rw [if_neg hu]
      by_cases hu' : (pc.cwd && (List.range pc.tasks).any fun k => (s.slot k).cwdIno == i && (s.slot k).cwdVol == s.cur) = true
      · rw [if_pos hu']
        exact ⟨_, _, rfl, a, Or.inr ⟨rfl, inUse_iff.2 (Or.inr hu'), f, h1, h2.symm.trans hn⟩⟩
      · rw [if_neg hu']
        refine ⟨_, _, rfl, a, Or.inl ⟨rfl, fun h => ?_⟩⟩
        rcases inUse_iff.1 h.1 with h | h
        · exact hu h
        · exact hu' h
  · rw [if_neg hn]
    refine ⟨_, _, rfl, a, Or.inl ⟨rfl, fun h => ?_⟩⟩
    obtain ⟨g, hg, hg1⟩ := h.2
    have : g = f := by have e1 : s.F pc i = some g := hg; rw [h1] at e1; exact (Option.some.inj e1).symm
    exact hn (h2.trans (this ▸ hg1))

theorem nlink_pos (hc : pc.Ok) (hi : PInv pc s) (hm : s.v.mounted = true) {p i : Nat} {nm : List Byte} {f : AFile} (h : Has (s.c pc) (s.F pc) p nm i) (hf : s.F pc i = some f) : 1 ≤ f.nlink := by
  have g := (Props.Names.Reach.ns (hc.sys _ hi.cur) (hc.posix _ hi.cur) (hi.reach _ hi.cur) hm).graph
  have h2 := (has_live (hc.sys _ hi.cur) (hc.posix _ hi.cur) (hi.reach _ hi.cur) hm h).2.1
  exact (g.nlink i _ (node_of hf) h2).2.1

theorem StartAt.quiet {t : Nat} {path : List Byte} {r : Except Err (Nat × Nat × List Byte)} (q : Quiet pc s s') (h : StartAt pc s t path r) : StartAt pc s' t path r := by
  cases h with
  | cwd h1 h2 h3 h4 h5 =>
    rw [← q.slot]
    exact .cwd h1 h2 h3 h4 ⟨h5.1, by rw [q.slot]; exact h5.2⟩
  | abs h1 h2 => exact .abs h1 h2
  | none_ h1 h2 => exact .none_ h1 h2

/-- What is known when a path has been looked at. -/
structure At (pc : PConf) (s0 s : PSt) (t : Nat) (path : List Byte) (vol start : Nat) (l : List Byte) : Prop where
  quiet : Quiet pc s0 s
  from_ : StartAt pc s0 t path (.ok (vol, start, l))
  ok : StartOk pc s vol start l

section
variable (hc : pc.Ok) (hi : PInv pc s) (hin : s.inited = true) {t k : Nat} (ht : SlotOf pc t s k)
include hc hi hin ht

theorem start_step {path : List Byte} (hs : CStr.Ok path) {s1 : PSt} (q1 : Quiet pc s s1) :
    (∃ e s', startingPoint pc t path s1 = (.error e, s') ∧ Quiet pc s s' ∧ StartAt pc s t path (.error e)) ∨
    (∃ vol start l s', startingPoint pc t path s1 = (.ok (vol, start, l), s') ∧ s'.cur = vol ∧ At pc s s' t path vol start l) := by
  have hi1 := hi.quiet q1
  have ht1 : SlotOf pc t s1 k := by unfold SlotOf; rw [q1.slot]; exact ht
  obtain ⟨r, s', e, q, hv, h, hcur⟩ := startingPoint_spec hc hi1 (q1.inited.trans hin) ht1 hs
  have hback : StartAt pc s t path r := by
    cases h with
    | cwd h1 h2 h3 h4 h5 => rw [q1.slot]; exact .cwd h1 h2 h3 h4 ⟨h5.1, by rw [← q1.slot]; exact h5.2⟩
    | abs h1 h2 => exact .abs h1 h2
    | none_ h1 h2 => exact .none_ h1 h2
  rcases r with x | ⟨vol, start, l⟩
  · exact Or.inl ⟨x, s', e, q1.trans q, hback⟩
  · have q' := q1.trans q
    exact Or.inr ⟨vol, start, l, s', e, hcur _ _ _ rfl, q', hback, (hback.ok hc hi hin hs).quiet q'⟩

omit hin ht in
/-- `RedPathToName`, on the current volume -/
theorem name_step {path : List Byte} {vol start : Nat} {l : List Byte} {s1 : PSt} (ha : At pc s s1 t path vol start l) (hcur : s1.cur = vol) (re : Err) :
    (∃ e s', onCur pc (fun c => pathToName c pc.cwd start l re) s1 = (.error e, s') ∧ Asked pc s1 s' ∧ Names pc s t path re (.error e)) ∨
    (∃ p name s', onCur pc (fun c => pathToName c pc.cwd start l re) s1 = (.ok (p, name), s') ∧ Asked pc s1 s' ∧
      ((s1.v.mounted = true ∧ CStr.Ok name ∧ Names pc s t path re (.ok (vol, p, nameOf (pc.conf vol) name))) ∨
       (s1.v.mounted = false ∧ Names pc s t path re (.error .einval)))) := by
  subst hcur
  have hi1 := hi.quiet ha.quiet
  obtain ⟨r, s', e, a, h1, h2⟩ := onToName hc hi1 ha.ok re
  have hsm := ha.quiet.vols _ ha.ok.lt
  have hmm : (s.vols s1.cur).mounted = s1.v.mounted := hsm.mounted.symm
  cases hm : s1.v.mounted with
  | true =>
    obtain ⟨h1, h3⟩ := h1 hm
    have hF : s1.F pc = s.files pc s1.cur := hsm.files (hmm.trans hm)
    rw [hF] at h1
    rcases r with x | ⟨p, name⟩
    · exact Or.inl ⟨x, s', e, a, .error ha.from_ (hmm.trans hm) h1⟩
    · exact Or.inr ⟨p, name, s', e, a, Or.inl ⟨rfl, h3 p name rfl, .ok ha.from_ (hmm.trans hm) h1⟩⟩
  | false =>
    rcases r with x | ⟨p, name⟩
    · exact Or.inl ⟨x, s', e, a, .off ha.from_ (hmm.trans hm) (h2 hm x rfl)⟩
    · exact Or.inr ⟨p, name, s', e, a, Or.inr ⟨rfl, .off ha.from_ (hmm.trans hm) (Or.inl rfl)⟩⟩

omit hc in
theorem held_quiet {vol i : Nat} (q : Quiet pc s s') (hv : vol < pc.n) (hm : (s.vols vol).mounted = true) : Held pc s' vol i ↔ Held pc s vol i := by
  unfold Held InUse PSt.files
  rw [q.handle, q.slot, (q.vols vol hv).files hm]

omit hin ht in
/-- An operation that changes the files of the current volume. -/
theorem effect_step {α : Type} {ev : Event} {m : Conf → VM α} {R : Files → Except Err α → Files → Prop} {s2 : PSt} {vol : Nat} (q : Quiet pc s s2) (hcur : s2.cur = vol)
    (hm : s2.v.mounted = true) (M : Mod (pc.conf vol) ev R (s2.vols vol) (m (pc.conf vol) (s2.vols vol)).1 (m (pc.conf vol) (s2.vols vol)).2)
    (hk : ∀ r F', R (s.files pc vol) r F' → ∀ i, InUse pc s vol i → Keeps (s.files pc vol) F' i) :
    ∃ r s', onCur pc m s2 = (r, s') ∧ PInv pc s' ∧ OnVol pc vol s s' (Rw s vol R r) ∧ s'.handle = s.handle ∧ s'.cur = vol := by
  subst hcur
  have hi2 := hi.quiet q
  have hsm := q.vols _ hi2.cur
  have hms : (s.vols s2.cur).mounted = true := hsm.mounted.symm.trans hm
  obtain ⟨o, ho⟩ := onVol_put hi2 hm M
  have o' := o.left q
  refine ⟨_, _, onCur_eta m s2, hi2.put M.reach hm M.mounted (fun i hu => Mod.keeps M (fun hR => ?_)), ?_, ho.trans q.handle, rfl⟩
  · have hF : RedFs.files (pc.conf s2.cur) (s2.vols s2.cur) = s.files pc s2.cur := hsm.files hms
    rw [hF] at hR ⊢
    refine hk _ _ hR i ?_
    unfold InUse at hu ⊢; rw [q.handle, q.slot] at hu; exact hu
  · refine { o' with rel := ?_ }
    have := o'.rel
    unfold Rw at this ⊢
    rw [hsm.ro] at this; exact this

/-- `red_mkdir` -/
theorem pMkdir_spec {path : List Byte} (hs : CStr.Ok path) :
    ∃ r s', pMkdir pc t path s = (r, s') ∧ PInv pc s' ∧ MkdirDoes pc t path s r s' := by
  unfold pMkdir
  rw [run_bind]
  rcases start_step hc hi hin ht hs (Quiet.refl pc s) with ⟨e, s1, e1, q, h⟩ | ⟨vol, start, l, s1, e1, hcur, ha⟩
  · rw [e1]; exact ⟨_, _, rfl, hi.quiet q, Or.inl ⟨e, .start h, rfl, q⟩⟩
  rw [e1]; dsimp only
  rw [run_bind]
  rcases name_step hc hi ha hcur .eexist with ⟨e, s2, e2, a, h⟩ | ⟨p, name, s2, e2, a, h⟩
  · rw [e2]; exact ⟨_, _, rfl, hi.quiet (ha.quiet.trans a.quiet), Or.inl ⟨e, h, rfl, ha.quiet.trans a.quiet⟩⟩
  rw [e2]; dsimp only
  rw [run_bind]
  have q2 := ha.quiet.trans a.quiet
  have hi2 := hi.quiet q2
  have hcur2 : s2.cur = vol := a.cur.trans hcur
  rcases h with ⟨hm, hn, h⟩ | ⟨hm, h⟩
  · have hm2 : s2.v.mounted = true := (a.mounted (hi.quiet ha.quiet).cur).trans hm
    obtain ⟨r, s3, e3, hi3, o, ho, _⟩ := effect_step hc hi (m := fun c => coreCreate c p name true) (R := Create (pc.conf vol) p (nameOf (pc.conf vol) name) true) q2 hcur2 hm2
      (by subst hcur2; exact create_typed (hc.sys _ hi2.cur) (hc.posix _ hi2.cur) (hi2.reach _ hi2.cur) hm2 p hn true)
      (fun r F' R i _ => create_keeps R i)
    rw [e3]
    refine ⟨r.map (fun _ => ()), s3, ?_, hi3, Or.inr ⟨vol, p, _, r, h, rfl, o, ho⟩⟩
    rcases r with x | y <;> rfl
  · have hm2 : s2.v.mounted = false := (a.mounted (hi.quiet ha.quiet).cur).trans hm
    rw [onCur_off (r := .error .einval) (show coreCreate _ p name true _ = _ from modifyingOp_off hm2)]
    exact ⟨_, _, rfl, hi2, Or.inl ⟨.einval, h, rfl, q2⟩⟩

omit hin ht in
theorem fileFns {vol : Nat} {s2 : PSt} (q : Quiet pc s s2) (hcur : s2.cur = vol) (hm : s2.v.mounted = true) : vol < pc.n ∧ s2.F pc = s.files pc vol ∧ (s.vols vol).mounted = true := by
  subst hcur
  have hi2 := hi.quiet q
  have hms := (q.vols _ hi2.cur).mounted.symm.trans hm
  exact ⟨hi2.cur, (q.vols _ hi2.cur).files hms, hms⟩

omit hc hin ht in
theorem onVol_quiet {vol : Nat} {R : Files → Files → Prop} (q : Quiet pc s s') (hv : vol < pc.n) (hm : (s.vols vol).mounted = true)
    (hR : R (s.files pc vol) (s.files pc vol)) : OnVol pc vol s s' R := by
  have h := q.vols vol hv
  refine ⟨hv, q.inited, q.slot, q.gen, fun i hi _ => q.vols i hi, hm, h.mounted.trans hm, h.ro, h.mask, ?_⟩
  show R _ (RedFs.files (pc.conf vol) (s'.vols vol)); rw [h.files hm]; exact hR

theorem has_unique {vol p i j : Nat} {nm : List Byte} (hv : vol < pc.n) (hm : (s.vols vol).mounted = true)
    (h1 : Has (pc.conf vol) (s.files pc vol) p nm i) (h2 : Has (pc.conf vol) (s.files pc vol) p nm j) : i = j :=
  Props.Names.has_fun (hc.sys _ hv) (hc.posix _ hv) (hi.reach _ hv) hm h1 h2

theorem nlink_ge {vol p i : Nat} {nm : List Byte} {f : AFile} (hv : vol < pc.n) (hm : (s.vols vol).mounted = true) (h : Has (pc.conf vol) (s.files pc vol) p nm i) (hf : s.files pc vol i = some f) : 1 ≤ f.nlink := by
  have g := (Props.Names.Reach.ns (hc.sys _ hv) (hc.posix _ hv) (hi.reach _ hv) hm).graph
  have h2 := (has_live (hc.sys _ hv) (hc.posix _ hv) (hi.reach _ hv) hm h).2.1
  exact (g.nlink i _ (node_of hf) h2).2.1

/-- The type check and the unlink of `UnlinkSub`. -/
theorem unlinkSub_spec {path : List Byte} (hs : CStr.Ok path) (type : FType) (hty : type ≠ .file) :
    ∃ r s', unlinkSub pc t path type s = (r, s') ∧ PInv pc s' ∧ UnlinkDoes pc t path (type = .dir) s r s' := by
  unfold unlinkSub
  rw [run_bind]
  rcases start_step hc hi hin ht hs (Quiet.refl pc s) with ⟨e, s1, e1, q, h⟩ | ⟨vol, start, l, s1, e1, hcur, ha⟩
  · rw [e1]; exact ⟨_, _, rfl, hi.quiet q, Or.inl ⟨e, .start h, rfl, q⟩⟩
  rw [e1]; dsimp only
  rw [run_bind]
  rcases name_step hc hi ha hcur .ebusy with ⟨e, s2, e2, a, h⟩ | ⟨p, name, s2, e2, a, h⟩
  · rw [e2]; exact ⟨_, _, rfl, hi.quiet (ha.quiet.trans a.quiet), Or.inl ⟨e, h, rfl, ha.quiet.trans a.quiet⟩⟩
  rw [e2]; dsimp only
  rw [run_bind]
  have q2 := ha.quiet.trans a.quiet
  have hi2 := hi.quiet q2
  have hcur2 : s2.cur = vol := a.cur.trans hcur
  rcases h with ⟨hm, hn, h⟩ | ⟨hm, h⟩
  swap
  · have hm2 : s2.v.mounted = false := (a.mounted (hi.quiet ha.quiet).cur).trans hm
    rw [onCur_off (r := .error .einval) (lookup_off hm2 p name)]
    exact ⟨_, _, rfl, hi2, Or.inl ⟨.einval, h, rfl, q2⟩⟩
  have hm2 : s2.v.mounted = true := (a.mounted (hi.quiet ha.quiet).cur).trans hm
  obtain ⟨hv, hF2, hms⟩ := fileFns hc hi q2 hcur2 hm2
  obtain ⟨r, s3, e3, a3, L⟩ := onLookup hc hi2 hm2 p hn
  rw [hF2, show s2.c pc = pc.conf vol by rw [← hcur2]] at L
  rw [e3]
  have q3 := q2.trans a3.quiet
  have hi3 := hi.quiet q3
  have hcur3 : s3.cur = vol := a3.cur.trans hcur2
  rcases r with x | i
  · exact ⟨_, _, rfl, hi3, Or.inr ⟨vol, p, _, h, onVol_quiet hi q3 hv hms (Or.inl ⟨x, L, rfl, rfl⟩), q3.handle⟩⟩
  dsimp only
  have hlive := has_live (hc.sys _ hv) (hc.posix _ hv) (hi.reach _ hv) hms L
  have hm3 : s3.v.mounted = true := (a3.mounted hi2.cur).trans hm2
  obtain ⟨_, hF3, _⟩ := fileFns hc hi q3 hcur3 hm3
  -- the rest
  have rest : ∀ {s4 : PSt}, Quiet pc s s4 → s4.cur = vol → (type = .dir → ∃ f, IsDir (s.files pc vol) i f) →
      ∃ r s', (do inodeUnlinkCheck pc i; onCur pc fun c => coreUnlink c p name : PM Unit) s4 = (r, s') ∧ PInv pc s' ∧ UnlinkDoes pc t path (type = .dir) s r s' := by
    intro s4 q4 hcur4 hd
    have hi4 := hi.quiet q4
    have hm4 : s4.v.mounted = true := by
      show (s4.vols s4.cur).mounted = true
      rw [hcur4, (q4.vols vol hv).mounted]; exact hms
    obtain ⟨_, hF4, _⟩ := fileFns hc hi q4 hcur4 hm4
    rw [run_bind]
    obtain ⟨r, s5, e5, a5, hh⟩ := unlinkCheck_spec hc hi4 hm4 (i := i) (by rw [hF4]; exact hlive.2.2.1)
    rw [e5]
    have q5 := q4.trans a5.quiet
    have hcur5 : s5.cur = vol := a5.cur.trans hcur4
    rw [hcur4, held_quiet hi hin ht q4 hv hms] at hh
    rcases hh with ⟨rfl, hh⟩ | ⟨rfl, hh⟩
    · dsimp only
      have hm5 : s5.v.mounted = true := (a5.mounted hi4.cur).trans hm4
      obtain ⟨r, s6, e6, hi6, o, ho, _⟩ := effect_step hc hi (m := fun c => coreUnlink c p name) (R := Unlink (pc.conf vol) p (nameOf (pc.conf vol) name)) q5 hcur5 hm5
        (by have hi5 := hi.quiet q5; subst hcur5; exact unlink_typed (hc.sys _ hi5.cur) (hc.posix _ hi5.cur) (hi5.reach _ hi5.cur) hm5 p hn)
        (fun r F' R j hu => by
          rcases unlink_keeps R j with hk | ⟨f, h1, h2, h3⟩
          · exact hk
          · exfalso
            have := has_unique hc hi hin ht hv hms h1 L
            subst this
            have := nlink_ge hc hi hin ht hv hms h1 h2
            exact hh ⟨hu, f, h2, by omega⟩)
      refine ⟨r, s6, e6, hi6, Or.inr ⟨vol, p, _, h, { o with rel := ?_ }, ho⟩⟩
      exact Or.inr ⟨i, L, Or.inr ⟨hd, (fun h => absurd h hh), fun _ => o.rel⟩⟩
    · refine ⟨_, _, rfl, hi.quiet q5, Or.inr ⟨vol, p, _, h, onVol_quiet hi q5 hv hms ?_, q5.handle⟩⟩
      exact Or.inr ⟨i, L, Or.inr ⟨hd, (fun _ => ⟨rfl, rfl⟩), fun h => absurd hh h⟩⟩
  by_cases he : type = .either
  · subst he
    rw [if_neg (by simp)]
    exact rest q3 hcur3 (fun h => by cases h)
  · have hd : type = .dir := by cases type <;> simp_all
    subst hd
    rw [if_pos (by simp)]
    obtain ⟨r, s4, e4, a4, st⟩ := onStat hc hi3 hm3 i
    rw [hF3] at st
    have q4 := q3.trans a4.quiet
    have hcur4 : s4.cur = vol := a4.cur.trans hcur3
    rw [run_bind, e4]
    rcases r with x | st0
    · exact absurd st.2 hlive.2.2.1
    obtain ⟨f, hf, _, hmode, _⟩ := st
    dsimp only
    rw [run_bind]
    unfold modeTypeCheck
    rcases file_kind (hc.sys _ hv) (hc.posix _ hv) (hi.reach _ hv) hms hlive.2.2.1 with ⟨g, hg⟩
    have hfg : g = f := by
      rcases hg with hg | hg <;> · have e1 := hg.1; rw [show RedFs.files (pc.conf vol) (s.vols vol) i = some f from hf] at e1; exact (Option.some.inj e1).symm
    subst hfg
    rw [if_neg (by simp)]
    rcases hg with hg | hg
    · rw [if_pos ⟨rfl, hmode.trans hg.2⟩]
      refine ⟨_, _, rfl, hi.quiet q4, Or.inr ⟨vol, p, _, h, onVol_quiet hi q4 hv hms ?_, q4.handle⟩⟩
      exact Or.inr ⟨i, L, Or.inl ⟨rfl, ⟨g, hg⟩, rfl, rfl⟩⟩
    · rw [if_neg (by rw [hmode, hg.2]; rintro ⟨_, h⟩; exact modes_ne h)]
      exact rest q4 hcur4 (fun _ => ⟨g, hg⟩)

/-- `red_rename` -/
theorem pRename_spec {old new : List Byte} (ho : CStr.Ok old) (hn : CStr.Ok new) :
    ∃ r s', pRename pc t old new s = (r, s') ∧ PInv pc s' ∧ RenameDoes pc t old new s r s' := by
  unfold pRename
  rw [run_bind]
  rcases start_step hc hi hin ht ho (Quiet.refl pc s) with ⟨e, s1, e1, q, h⟩ | ⟨vol, start, l, s1, e1, hcur, ha⟩
  · rw [e1]; exact ⟨_, _, rfl, hi.quiet q, Or.inl ⟨e, h, rfl, q⟩⟩
  rw [e1]; dsimp only
  rw [run_bind]
  rcases start_step hc hi hin ht hn ha.quiet with ⟨e, s2, e2, q, h⟩ | ⟨vol', start', l', s2, e2, hcur2, hb⟩
  · rw [e2]; exact ⟨_, _, rfl, hi.quiet q, Or.inr (Or.inl ⟨e, _, ha.from_, h, rfl, q⟩)⟩
  rw [e2]; dsimp only
  by_cases hvv : vol = vol'
  swap
  · rw [if_pos hvv]
    exact ⟨_, _, rfl, hi.quiet hb.quiet, Or.inr (Or.inr (Or.inl ⟨_, _, ha.from_, hb.from_, hvv, rfl, hb.quiet⟩))⟩
  subst hvv
  rw [if_neg (by simp)]
  have ha2 : At pc s s2 t old vol start l := ⟨hb.quiet, ha.from_, (ha.from_.ok hc hi hin ho).quiet hb.quiet⟩
  rw [run_bind]
  rcases name_step hc hi ha2 hcur2 .ebusy with ⟨e, s3, e3, a, h⟩ | ⟨p, name, s3, e3, a, h⟩
  · rw [e3]; exact ⟨_, _, rfl, hi.quiet (hb.quiet.trans a.quiet), Or.inr (Or.inr (Or.inr (Or.inl ⟨e, _, _, ha.from_, hb.from_, rfl, h, rfl, hb.quiet.trans a.quiet⟩)))⟩
  rw [e3]; dsimp only
  rw [run_bind]
  have q3 := hb.quiet.trans a.quiet
  have hcur3 : s3.cur = vol := a.cur.trans hcur2
  have hb3 : At pc s s3 t new vol start' l' := ⟨q3, hb.from_, (hb.from_.ok hc hi hin hn).quiet q3⟩
  have hmm3 := a.mounted (hi.quiet hb.quiet).cur
  rcases name_step hc hi hb3 hcur3 .ebusy with ⟨e, s4, e4, a4, h'⟩ | ⟨p', name', s4, e4, a4, h'⟩
  · rw [e4]
    refine ⟨_, _, rfl, hi.quiet (q3.trans a4.quiet), Or.inr (Or.inr (Or.inr (Or.inr (Or.inl ⟨e, _, _, ha.from_, hb.from_, rfl, ?_, h', rfl, q3.trans a4.quiet⟩))))⟩
    rcases h with ⟨hm, hname, h⟩ | ⟨hm, h⟩
    · exact Or.inl ⟨_, h⟩
    · refine Or.inr ?_
      have := hb.quiet.vols vol (hcur2 ▸ (hi.quiet hb.quiet).cur)
      rw [← this.mounted, ← hcur2]; exact hm
  rw [e4]; dsimp only
  have q4 := q3.trans a4.quiet
  have hi4 := hi.quiet q4
  have hcur4 : s4.cur = vol := a4.cur.trans hcur3
  have hmm4 := (a4.mounted (hi.quiet q3).cur).trans hmm3
  rcases h with ⟨hm, hname, h⟩ | ⟨hm, h⟩
  swap
  · have hm4 : s4.v.mounted = false := hmm4.trans hm
    have res : RenameDoes pc t old new s (.error .einval) s4 := Or.inr (Or.inr (Or.inr (Or.inl ⟨.einval, _, _, ha.from_, hb.from_, rfl, h, rfl, q4⟩)))
    cases hat : pc.atomic with
    | true =>
      rw [if_pos rfl, run_bind, run_attempt, onCur_off (r := .error .einval) (lookup_off hm4 p' name')]
      exact ⟨_, _, rfl, hi4, res⟩
    | false =>
      rw [if_neg (by simp)]
      rw [onCur_off (r := .error .einval) (show coreRename _ p name p' name' _ = _ from modifyingOp_off hm4)]
      exact ⟨_, _, rfl, hi4, res⟩
  rcases h' with ⟨hm', hname', h'⟩ | ⟨hm', _⟩
  swap
  · exfalso; rw [hmm3, hm] at hm'; cases hm'
  have hm4 : s4.v.mounted = true := hmm4.trans hm
  obtain ⟨hv, hF4, hms⟩ := fileFns hc hi q4 hcur4 hm4
  -- the rename itself
  have fin : ∀ {s5 : PSt}, Quiet pc s s5 → s5.cur = vol →
      (pc.atomic = true → ∀ i, Has (pc.conf vol) (s.files pc vol) p' (nameOf (pc.conf vol) name') i → ¬ Held pc s vol i) →
      ∃ r s', onCur pc (fun c => coreRename c p name p' name') s5 = (r, s') ∧ PInv pc s' ∧ RenameDoes pc t old new s r s' := by
    intro s5 q5 hcur5 hh
    have hi5 := hi.quiet q5
    have hm5 : s5.v.mounted = true := by
      show (s5.vols s5.cur).mounted = true
      rw [hcur5, (q5.vols vol hv).mounted]; exact hms
    obtain ⟨r, s6, e6, hi6, o, hho, _⟩ := effect_step hc hi (m := fun c => coreRename c p name p' name')
      (R := Rename (pc.conf vol) p (nameOf (pc.conf vol) name) p' (nameOf (pc.conf vol) name')) q5 hcur5 hm5
      (by subst hcur5; exact rename_typed (hc.sys _ hi5.cur) (hc.posix _ hi5.cur) (hi5.reach _ hi5.cur) hm5 p p' hname hname')
      (fun r F' R j hu => by
        rcases rename_keeps R j with hk | ⟨f, h0, h1, h2, h3⟩
        · exact hk
        · exfalso
          have := nlink_ge hc hi hin ht hv hms h1 h2
          rw [hc.atomic _ hv] at h0
          exact hh h0 j h1 ⟨hu, f, h2, by omega⟩)
    exact ⟨r, s6, e6, hi6, Or.inr (Or.inr (Or.inr (Or.inr (Or.inr ⟨vol, p, _, p', _, h, h', Or.inr (Or.inr ⟨hh, o, hho⟩)⟩))))⟩
  cases hat : pc.atomic with
  | false =>
    rw [if_neg (by simp)]
    exact fin q4 hcur4 (fun h => by rw [hat] at h; cases h)
  | true =>
    rw [if_pos rfl, run_bind, run_attempt]
    obtain ⟨r, s5, e5, a5, L⟩ := onLookup hc hi4 hm4 p' hname'
    rw [hF4, show s4.c pc = pc.conf vol by rw [← hcur4]] at L
    rw [e5]
    dsimp only
    have q5 := q4.trans a5.quiet
    have hi5 := hi.quiet q5
    have hcur5 : s5.cur = vol := a5.cur.trans hcur4
    have hm5 : s5.v.mounted = true := (a5.mounted hi4.cur).trans hm4
    rcases r with x | i
    · dsimp only
      by_cases hx : x = .enoent
      · subst hx
        rw [if_pos rfl]
        refine fin q5 hcur5 (fun _ i hh _ => ?_)
        rcases L with L | ⟨_, (⟨_, L⟩ | ⟨_, L⟩) | ⟨_, _, _, L⟩⟩
        · rcases L with ⟨L, _⟩ | ⟨L, _⟩ <;> cases L
        · cases L
        · cases L
        · exact L i hh
      · rw [if_neg hx]
        refine ⟨_, _, rfl, hi5, Or.inr (Or.inr (Or.inr (Or.inr (Or.inr ⟨vol, p, _, p', _, h, h', Or.inl ⟨x, hat, L, hx, rfl, q5⟩⟩))))⟩
    · dsimp only
      have hlive := has_live (hc.sys _ hv) (hc.posix _ hv) (hi.reach _ hv) hms L
      obtain ⟨_, hF5, _⟩ := fileFns hc hi q5 hcur5 hm5
      obtain ⟨r, s6, e6, a6, hh⟩ := unlinkCheck_spec hc hi5 hm5 (i := i) (by rw [hF5]; exact hlive.2.2.1)
      rw [run_bind, e6]
      have q6 := q5.trans a6.quiet
      have hcur6 : s6.cur = vol := a6.cur.trans hcur5
      rw [hcur5, held_quiet hi hin ht q5 hv hms] at hh
      rcases hh with ⟨rfl, hh⟩ | ⟨rfl, hh⟩
      · exact fin q6 hcur6 (fun _ j hj => by rw [has_unique hc hi hin ht hv hms hj L]; exact hh)
      · exact ⟨_, _, rfl, hi.quiet q6, Or.inr (Or.inr (Or.inr (Or.inr (Or.inr ⟨vol, p, _, p', _, h, h', Or.inr (Or.inl ⟨i, hat, L, hh, rfl, q6⟩)⟩))))⟩

omit hin ht in
/-- `RedPathLookup`, on the current volume -/
theorem find_step {path : List Byte} {vol start : Nat} {l : List Byte} {s1 : PSt} (ha : At pc s s1 t path vol start l) (hcur : s1.cur = vol) :
    (∃ e s', onCur pc (fun c => pathLookup c pc.cwd start l) s1 = (.error e, s') ∧ Asked pc s1 s' ∧ Finds pc s t path (.error e)) ∨
    (∃ i s', onCur pc (fun c => pathLookup c pc.cwd start l) s1 = (.ok i, s') ∧ Asked pc s1 s' ∧
      ((s1.v.mounted = true ∧ Finds pc s t path (.ok (vol, i)) ∧ s.files pc vol i ≠ none) ∨
       (s1.v.mounted = false ∧ pc.cwd = false ∧ Finds pc s t path (.error .einval)))) := by
  subst hcur
  have hi1 := hi.quiet ha.quiet
  obtain ⟨r, s', e, a, h1, h2⟩ := onPathLookup hc hi1 ha.ok
  have hsm := ha.quiet.vols _ ha.ok.lt
  have hmm : (s.vols s1.cur).mounted = s1.v.mounted := hsm.mounted.symm
  cases hm : s1.v.mounted with
  | true =>
    have h1 := h1 hm
    have hF : s1.F pc = s.files pc s1.cur := hsm.files (hmm.trans hm)
    have hlv := walk_live (hc.sys _ hi1.cur) (hc.posix _ hi1.cur) (hi1.reach _ hi1.cur) hm
      (by obtain ⟨f, hf⟩ := ha.ok.up hm; rw [hf.1]; simp) h1
    rw [hF] at h1
    rcases r with x | i
    · exact Or.inl ⟨x, s', e, a, .error ha.from_ (hmm.trans hm) h1⟩
    · exact Or.inr ⟨i, s', e, a, Or.inl ⟨rfl, .ok ha.from_ (hmm.trans hm) h1, hF ▸ hlv i rfl⟩⟩
  | false =>
    rcases h2 hm with rfl | ⟨i, h3, rfl⟩
    · exact Or.inl ⟨_, s', e, a, .off ha.from_ (hmm.trans hm)⟩
    · exact Or.inr ⟨i, s', e, a, Or.inr ⟨rfl, h3, .off ha.from_ (hmm.trans hm)⟩⟩

/-- `red_link` -/
theorem pLink_spec {path new : List Byte} (ho : CStr.Ok path) (hn : CStr.Ok new) :
    ∃ r s', pLink pc t path new s = (r, s') ∧ PInv pc s' ∧ LinkDoes pc t path new s r s' := by
  unfold pLink
  rw [run_bind]
  rcases start_step hc hi hin ht ho (Quiet.refl pc s) with ⟨e, s1, e1, q, h⟩ | ⟨vol, start, l, s1, e1, hcur, ha⟩
  · rw [e1]; exact ⟨_, _, rfl, hi.quiet q, Or.inl ⟨e, h, rfl, q⟩⟩
  rw [e1]; dsimp only
  rw [run_bind]
  rcases start_step hc hi hin ht hn ha.quiet with ⟨e, s2, e2, q, h⟩ | ⟨vol', start', l', s2, e2, hcur2, hb⟩
  · rw [e2]; exact ⟨_, _, rfl, hi.quiet q, Or.inr (Or.inl ⟨e, _, ha.from_, h, rfl, q⟩)⟩
  rw [e2]; dsimp only
  by_cases hvv : vol = vol'
  swap
  · rw [if_pos hvv]
    exact ⟨_, _, rfl, hi.quiet hb.quiet, Or.inr (Or.inr (Or.inl ⟨_, _, ha.from_, hb.from_, hvv, rfl, hb.quiet⟩))⟩
  subst hvv
  rw [if_neg (by simp)]
  have ha2 : At pc s s2 t path vol start l := ⟨hb.quiet, ha.from_, (ha.from_.ok hc hi hin ho).quiet hb.quiet⟩
  rw [run_bind]
  rcases find_step hc hi ha2 hcur2 with ⟨e, s3, e3, a, h⟩ | ⟨i, s3, e3, a, h⟩
  · rw [e3]; exact ⟨_, _, rfl, hi.quiet (hb.quiet.trans a.quiet), Or.inr (Or.inr (Or.inr (Or.inl ⟨e, _, _, ha.from_, hb.from_, rfl, h, rfl, hb.quiet.trans a.quiet⟩)))⟩
  rw [e3]; dsimp only
  rw [run_bind]
  have q3 := hb.quiet.trans a.quiet
  have hcur3 : s3.cur = vol := a.cur.trans hcur2
  have hb3 : At pc s s3 t new vol start' l' := ⟨q3, hb.from_, (hb.from_.ok hc hi hin hn).quiet q3⟩
  have hmm3 := a.mounted (hi.quiet hb.quiet).cur
  rcases name_step hc hi hb3 hcur3 .eexist with ⟨e, s4, e4, a4, h'⟩ | ⟨p', name', s4, e4, a4, h'⟩
  · rw [e4]
    refine ⟨_, _, rfl, hi.quiet (q3.trans a4.quiet), Or.inr (Or.inr (Or.inr (Or.inr (Or.inl ⟨e, _, _, ha.from_, hb.from_, rfl, ?_, h', rfl, q3.trans a4.quiet⟩))))⟩
    rcases h with ⟨hm, h, _⟩ | ⟨hm, _, h⟩
    · exact Or.inl ⟨_, h⟩
    · refine Or.inr ?_
      have := hb.quiet.vols vol (hcur2 ▸ (hi.quiet hb.quiet).cur)
      rw [← this.mounted, ← hcur2]; exact hm
  rw [e4]; dsimp only
  have q4 := q3.trans a4.quiet
  have hi4 := hi.quiet q4
  have hcur4 : s4.cur = vol := a4.cur.trans hcur3
  have hmm4 := (a4.mounted (hi.quiet q3).cur).trans hmm3
  rcases h with ⟨hm, h, _⟩ | ⟨hm, _, h⟩
  swap
  · have hm4 : s4.v.mounted = false := hmm4.trans hm
    rw [onCur_off (r := .error .einval) (show coreLink _ p' name' i _ = _ from modifyingOp_off hm4)]
    exact ⟨_, _, rfl, hi4, Or.inr (Or.inr (Or.inr (Or.inl ⟨.einval, _, _, ha.from_, hb.from_, rfl, h, rfl, q4⟩)))⟩
  rcases h' with ⟨hm', hname', h'⟩ | ⟨hm', _⟩
  swap
  · exfalso; rw [hmm3, hm] at hm'; cases hm'
  have hm4 : s4.v.mounted = true := hmm4.trans hm
  obtain ⟨r, s6, e6, hi6, o, hho, _⟩ := effect_step hc hi (m := fun c => coreLink c p' name' i)
      (R := Link (pc.conf vol) p' (nameOf (pc.conf vol) name') i) q4 hcur4 hm4
      (by subst hcur4; exact link_typed (hc.sys _ hi4.cur) (hc.posix _ hi4.cur) (hi4.reach _ hi4.cur) hm4 p' hname' i)
      (fun r F' R j hu => link_keeps R j)
  exact ⟨r, s6, e6, hi6, Or.inr (Or.inr (Or.inr (Or.inr (Or.inr ⟨vol, i, p', _, h, h', o, hho⟩))))⟩

end

end RedFs.Posix
