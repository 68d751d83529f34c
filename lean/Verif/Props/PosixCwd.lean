import Verif.Spec.PosixCwd
import Verif.Props.PosixNames
import Verif.Lemmas.PosixDemo
set_option linter.unusedSimpArgs false
set_option linter.unusedVariables false
set_option linter.unusedSectionVars false
/-!
C52: the path that `red_getcwd` returns is the path of the current directory.
-/
namespace RedFs.Props.PosixCwd
open RedFs Posix M Str Path Spec

section
variable {c : Conf} {v : Vol} (hc : c.SysOk) (hp : c.posix = true) (h : Reach c v) (hm : v.mounted = true)
include hc hp h hm

theorem path_names {i : Nat} {cs : List (List Byte)} (w : PathOf c (files c v) i cs) : ∀ nm ∈ cs, NameOk c nm := by
  induction w with
  | root => simp
  | step h2 hf hh w ih =>
    intro nm hn
    rcases List.mem_append.1 hn with hn | hn
    · exact ih nm hn
    · rw [List.mem_singleton.1 hn]; exact has_nameOk hc hp h hm hh

theorem path_walk {dots : Prop} {i : Nat} {cs : List (List Byte)} (w : PathOf c (files c v) i cs) : Walk c (files c v) dots 2 cs (.ok i) := by
  induction w with
  | root => exact .done
  | step h2 hf hh w ih =>
    have ok := has_nameOk hc hp h hm hh
    exact Walk.snoc ih rfl (fun hx => hx.2.elim ok.dot ok.dotdot) hh

theorem path_det {i : Nat} {cs ds : List (List Byte)} (w : PathOf c (files c v) i cs) (w' : PathOf c (files c v) i ds) : cs = ds := by
  induction w generalizing ds with
  | root => cases w' with
    | root => rfl
    | step h2 => exact absurd rfl h2
  | @step i p nm cs f h2 hf hh w ih =>
    cases w' with
    | root => exact absurd rfl h2
    | @step _ p' nm' cs' f' _ hf' hh' w' =>
      have e1 := (has_live hc hp h hm hh).2.2.2 f hf
      have e2 := (has_live hc hp h hm hh').2.2.2 f hf
      have e : p = p' := e1.symm.trans e2
      subst e
      obtain ⟨k, nm0, _, hk, hu⟩ := dir_entry hc hp h hm hf h2
      rw [e1] at hk hu
      obtain ⟨k1, hk1⟩ := hh
      obtain ⟨k2, hk2⟩ := hh'
      have a := hu k1 nm hk1
      have b := hu k2 nm' hk2
      rw [a, hk] at hk1; rw [b, hk] at hk2
      injection hk1 with hk1; injection hk2 with hk2
      injection hk1 with _ hk1; injection hk2 with _ hk2
      rw [ih w', ← hk1, ← hk2]

/-- The elements of a path without "." and ".." are the path of the directory it leads to. -/
theorem walk_path {dots : Prop} {j : Nat} : ∀ {cs : List (List Byte)} {r : Except Err Nat} {i : Nat} {ds : List (List Byte)}, Walk c (files c v) dots i cs r → r = .ok j → (∀ n ∈ cs, ¬ Dotty n) →
    PathOf c (files c v) i ds → (∃ f, IsDir (files c v) j f) → PathOf c (files c v) j (ds ++ cs) := by
  intro cs r i ds w
  induction w generalizing ds with
  | done => intro e _ p _; cases e; simpa using p
  | @name i k n cs r hn hh w ih =>
    intro e hd p hj
    have hk : ∃ f, IsDir (files c v) k f := by
      cases w with
      | done => cases e; exact hj
      | name _ hh' _ => exact has_dir hc hp hh'
      | dot _ hf _ => exact ⟨_, hf⟩
      | up _ hf _ => exact ⟨_, hf⟩
      | notDir => cases e
      | tooLong => cases e
      | missing => cases e
    obtain ⟨f, hf⟩ := hk
    have := ih e (fun n hn => hd n (List.mem_cons_of_mem _ hn)) (.step (has_live hc hp h hm hh).2.1 hf hh p) hj
    simpa using this
  | dot _ _ _ => intro _ hd; exact absurd (Or.inl rfl) (hd _ (List.mem_cons_self ..))
  | up _ _ _ => intro _ hd; exact absurd (Or.inr rfl) (hd _ (List.mem_cons_self ..))
  | notDir => intro e; cases e
  | tooLong => intro e; cases e
  | missing => intro e; cases e

end

theorem comps_join {sep : Byte} : ∀ {cs : List (List Byte)}, (∀ nm ∈ cs, nm ≠ [] ∧ ∀ x ∈ nm, x ≠ sep) → comps sep (joinPath sep cs) = cs
  | [], _ => comps_nil sep
  | [x], h => PosixNames.C33_split_name sep (h x (by simp)).1 (h x (by simp)).2
  | x :: y :: l, h => by
    show comps sep (x ++ sep :: joinPath sep (y :: l)) = _
    rw [PosixNames.C33_split, PosixNames.C33_split_name sep (h x (by simp)).1 (h x (by simp)).2, comps_join (fun nm hn => h nm (List.mem_cons_of_mem _ hn))]
    rfl

theorem join_mem {sep x : Byte} : ∀ {cs : List (List Byte)}, x ∈ joinPath sep cs → x = sep ∨ ∃ nm ∈ cs, x ∈ nm
  | [], h => by cases h
  | [y], h => Or.inr ⟨y, by simp, h⟩
  | y :: z :: l, h => by
    rcases List.mem_append.1 (show x ∈ y ++ sep :: joinPath sep (z :: l) from h) with h | h
    · exact Or.inr ⟨y, by simp, h⟩
    · rcases List.mem_cons.1 h with h | h
      · exact Or.inl h
      · rcases join_mem h with h | ⟨nm, h1, h2⟩
        · exact Or.inl h
        · exact Or.inr ⟨nm, List.mem_cons_of_mem _ h1, h2⟩

variable {pc : PConf} {s s' s1 : PSt} {t : Nat}

theorem pathTo_matches (pc : PConf) (vol : Nat) (cs : List (List Byte)) : Matches pc.sep (pc.pre vol) (pathTo pc vol cs) := Or.inr (Or.inr ⟨_, rfl⟩)
theorem pathTo_absolute {vol : Nat} (hv : vol < pc.n) (cs : List (List Byte)) : ¬ PosixNames.Relative pc (pathTo pc vol cs) := by
  rintro ⟨_, h, _, h'⟩
  by_cases e : pc.pre vol = []
  · apply h'; unfold pathTo; rw [e]; rfl
  · exact h vol hv e (pathTo_matches ..)
theorem pathTo_start {vol : Nat} (hv : vol < pc.n) {cs : List (List Byte)} (hcl : Clear pc (pathTo pc vol cs) vol) :
    StartAt pc s t (pathTo pc vol cs) (.ok (vol, 2, pc.sep :: joinPath pc.sep cs)) := by
  have := PosixNames.start_of_selected (s := s) (t := t) (pathTo_absolute hv cs) ⟨hv, pathTo_matches .., hcl⟩
  unfold pathTo at this ⊢
  rw [List.drop_left] at this
  exact this

theorem cwd_registers {vol ino : Nat} (hw : CwdOf pc s t vol ino) : Registers pc t s s := by
  obtain ⟨j, ⟨hj, e⟩, _⟩ := hw
  by_cases h1 : pc.tasks = 1
  · exact .single h1
  · exact .old h1 hj (e.resolve_left h1)

section
variable (hc : pc.Ok) (h : PReach pc s) (hin : s.inited = true) {vol ino : Nat} (hw : CwdOf pc s t vol ino)
include hc h hin hw

/-- **C52** `red_getcwd` returns the names that lead from the root of the volume to the current directory, after the prefix of the volume; or it fails because
the buffer is too small for them. -/
theorem C52_getcwd {size : Nat} (hp : Permitted pc t (.getcwd size) s) (hz : size ≠ 0) (hm : (s.vols vol).mounted = true) :
    ∃ cs, PathOf (pc.conf vol) (s.files pc vol) ino cs ∧
      (pexec pc t (.getcwd size) s).1 = if (pathTo pc vol cs).length < size then .ok (.path (pathTo pc vol cs)) else .error .erange := by
  have R := cwd_registers hw
  obtain ⟨s2, d, a2⟩ := call_body hc h hp (by simp) hin hz R
  generalize (pexec pc t (.getcwd size) s).1 = r at *
  obtain ⟨r0, hr, q, j, hj, d⟩ := d
  obtain ⟨j', hj', rfl, rfl⟩ := hw
  cases SlotOf.uniq (h.inv hc) hin hp.1 hj hj'
  rw [if_pos hm] at d
  obtain ⟨cs, h1, h2⟩ := d
  refine ⟨cs, h1, ?_⟩
  dsimp only at h2
  unfold pathTo
  by_cases hx : (pc.pre (s.slot j).cwdVol ++ pc.sep :: joinPath pc.sep cs).length + 1 ≤ size
  · rw [if_pos hx] at h2; rw [if_pos (by omega), hr, h2]; rfl
  · rw [if_neg hx] at h2; rw [if_neg (by omega), hr, h2]; rfl

/-- **C52** If the volume is not mounted, it is the root of the volume. -/
theorem C52_not_mounted {size : Nat} (hp : Permitted pc t (.getcwd size) s) (hz : size ≠ 0) (hm : (s.vols vol).mounted = false) :
    (pexec pc t (.getcwd size) s).1 = if (pc.pre vol).length + 1 < size then .ok (.path (pc.pre vol ++ [pc.sep])) else .error .erange := by
  have R := cwd_registers hw
  obtain ⟨s2, d, a2⟩ := call_body hc h hp (by simp) hin hz R
  generalize (pexec pc t (.getcwd size) s).1 = r at *
  obtain ⟨r0, hr, q, j, hj, d⟩ := d
  obtain ⟨j', hj', rfl, rfl⟩ := hw
  cases SlotOf.uniq (h.inv hc) hin hp.1 hj hj'
  rw [if_neg (by rw [hm]; simp)] at d
  by_cases hx : (pc.pre (s.slot j).cwdVol).length + 2 ≤ size
  · rw [if_pos hx] at d; rw [if_pos (by omega), hr, d]; rfl
  · rw [if_neg hx] at d; rw [if_neg (by omega), hr, d]; rfl

/-- **C52** The path that `red_getcwd` returns means the current directory, to every task that is registered: `red_chdir` with it succeeds, and makes that
directory the current one. -/
theorem C52_chdir_back {size : Nat} {p : List Byte} (hp : Permitted pc t (.getcwd size) s) (hm : (s.vols vol).mounted = true) (he : pexec pc t (.getcwd size) s = (.ok (.path p), s'))
    (hcl : Clear pc p vol) : Finds pc s t p (.ok (vol, ino)) ∧ ∀ t' vol' ino', t' ≠ 0 → CwdOf pc s t' vol' ino' → Permitted pc t' (.chdir p) s ∧
      (pexec pc t' (.chdir p) s).1 = .ok .unit ∧ CwdOf pc (pexec pc t' (.chdir p) s).2 t' vol ino := by
  have hi := h.inv hc
  have hz : size ≠ 0 := by
    obtain ⟨_, _, hb, _⟩ := call_ok hc h hp (by simp) hin he
    exact hb
  obtain ⟨cs, hcs, hr⟩ := C52_getcwd hc h hin hw hp hz hm
  rw [he] at hr
  dsimp only at hr
  split at hr
  case isFalse => cases hr
  injection hr with hr
  injection hr with hr
  subst hr
  have hcw : pc.cwd = true := hp.2.2.1 trivial
  have hv : vol < pc.n := by obtain ⟨j, hj, rfl, _⟩ := hw; exact (hi.slot hin hcw j hj.1).vol
  have hdir : ∃ f, IsDir (s.files pc vol) ino f := by obtain ⟨j, hj, rfl, rfl⟩ := hw; exact (hi.slot hin hcw j hj.1).mounted hm
  have hn := path_names (hc.sys vol hv) (hc.posix vol hv) (hi.reach vol hv) hm hcs
  have hF : ∀ t, Finds pc s t (pathTo pc vol cs) (.ok (vol, ino)) := by
    intro t
    refine .ok (pathTo_start hv hcl) hm ?_
    rw [comps_sep, comps_join (fun nm h => ⟨?_, fun x hx => ?_⟩)]
    · exact path_walk (hc.sys vol hv) (hc.posix vol hv) (hi.reach vol hv) hm hcs
    · intro e; have := (hn nm h).pos; rw [e] at this; simp at this
    · rw [← hc.sep vol hv]; exact (hn nm h).sep x hx
  refine ⟨hF t, fun t' vol' ino' ht' hw' => ?_⟩
  have hok : CStr.Ok (pathTo pc vol cs) := by
    have hsep : pc.sep ≠ 0 := by rw [← hc.sep vol hv]; exact ((hc.sys vol hv).posixOk (hc.posix vol hv)).sep
    intro x hx
    rcases List.mem_append.1 hx with hx | hx
    · exact hc.pre vol hv x hx
    · rcases List.mem_cons.1 hx with rfl | hx
      · exact hsep
      · rcases join_mem hx with rfl | ⟨nm, h1, h2⟩
        · exact hsep
        · exact (hn nm h1).nul x h2
  have hpc : Permitted pc t' (.chdir (pathTo pc vol cs)) s := ⟨ht', hok, fun _ => hcw, fun _ h => by cases h⟩
  have := ((PosixNames.C33_chdir hc h hin (cwd_registers hw') hpc).2 vol ino (hF t')).2 hdir
  obtain ⟨j, hj, _, _⟩ := hw'
  refine ⟨hpc, this.1, ?_⟩
  obtain ⟨s3, d, _⟩ := call_body hc h hpc (by simp) hin id (cwd_registers ⟨j, hj, rfl, rfl⟩)
  refine ⟨j, ⟨hj.1, ?_⟩, this.2.2 j hj⟩
  rcases hj.2 with e | e
  · exact Or.inl e
  · right
    obtain ⟨s1, R, _, d⟩ := call_ok hc h hpc (by simp) hin (show pexec pc t' (.chdir (pathTo pc vol cs)) s = (.ok .unit, (pexec pc t' (.chdir (pathTo pc vol cs)) s).2) by rw [← this.1])
    cases R.uniq (cwd_registers ⟨j, hj, rfl, rfl⟩)
    obtain ⟨r0, hr, d⟩ := d
    generalize (pexec pc t' (.chdir (pathTo pc vol cs)) s).2 = s' at *
    rcases d with ⟨e', _, d⟩ | ⟨_, _, _, ⟨_, d⟩ | ⟨_, _, j', _, q⟩⟩
    · rw [d.1] at hr; cases hr
    · rw [d.1] at hr; cases hr
    · rw [q.slot]
      unfold PSt.setSlot Posix.upd
      dsimp only
      split
      · next e => subst e; assumption
      · exact e

/-- **C52** A task that has changed to a directory by an absolute path without "." and ".." gets this path from `red_getcwd` (if the directory is one of the
volume named by the prefix; separators are written once). -/
theorem C52_getcwd_back {vol' : Nat} {cs : List (List Byte)} {size : Nat} (hcs : ∀ nm ∈ cs, nm ≠ [] ∧ ¬ Dotty nm ∧ ∀ x ∈ nm, x ≠ pc.sep) (hv : vol' < pc.n)
    (hcl : Clear pc (pathTo pc vol' cs) vol') (hp : Permitted pc t (.chdir (pathTo pc vol' cs)) s) (he : pexec pc t (.chdir (pathTo pc vol' cs)) s = (.ok .unit, s'))
    (hp' : Permitted pc t (.getcwd size) s') (hz : (pathTo pc vol' cs).length < size) : (pexec pc t (.getcwd size) s').1 = .ok (.path (pathTo pc vol' cs)) := by
  have hi := h.inv hc
  have hcw : pc.cwd = true := hp.2.2.1 trivial
  have R := cwd_registers hw
  have hreach' : PReach pc s' := by have := h.call hp; rw [he] at this; exact this
  obtain ⟨s1, R', _, d⟩ := call_ok hc h hp (by simp) hin he
  cases R'.uniq R
  obtain ⟨r0, hr, d⟩ := d
  rcases d with ⟨e', _, d⟩ | ⟨v, i, hF, ⟨_, d⟩ | ⟨hdir, _, j, hj, q⟩⟩
  · rw [d.1] at hr; cases hr
  · rw [d.1] at hr; cases hr
  have hin' : s'.inited = true := q.inited.trans hin
  have hslot : s'.slot j = { s.slot j with cwdVol := v, cwdIno := i } := by rw [q.slot]; exact upd_same _ _ _
  have hw' : CwdOf pc s' t v i := ⟨j, ⟨hj.1, hj.2.imp id fun e => by rw [hslot]; exact e⟩, by rw [hslot], by rw [hslot]⟩
  cases hF with
  | ok hS hm w =>
    have hS' := StartAt.det hc hi hin hp.1 hS (pathTo_start hv hcl)
    injection hS' with hS'
    injection hS' with e1 hS'
    injection hS' with e2 e3
    subst e1 e2 e3
    have hq := q.vols v hv
    have hm' : (s'.vols v).mounted = true := hq.mounted.trans hm
    have hf' : s'.files pc v = s.files pc v := hq.files hm
    rw [comps_sep, comps_join (fun nm hn => ⟨(hcs nm hn).1, (hcs nm hn).2.2⟩)] at w
    have P := walk_path (hc.sys v hv) (hc.posix v hv) (hi.reach v hv) hm w rfl (fun n hn => (hcs n hn).2.1) .root hdir
    rw [List.nil_append] at P
    obtain ⟨ds, P', hr'⟩ := C52_getcwd hc hreach' hin' hw' hp' (by omega) hm'
    rw [hf'] at P'
    rw [path_det (hc.sys v hv) (hc.posix v hv) (hi.reach v hv) hm P' P] at hr'
    rw [hr', if_pos hz]

end

/-- **C52** If there is one volume, no other prefix can match. -/
theorem C52_one_volume (h1 : pc.n = 1) (p : List Byte) : Clear pc p 0 := by
  intro i hi _
  obtain rfl : i = 0 := by omega
  exact Nat.le_refl _

/-! ### Examples -/

theorem cwdOf_of {vol ino j : Nat} (hj : j < pc.tasks) (h : ((s.slot j).task, (s.slot j).cwdVol, (s.slot j).cwdIno) = (t, vol, ino)) : CwdOf pc s t vol ino := by
  obtain ⟨h1, h2⟩ := Prod.mk.inj h
  obtain ⟨h2, h3⟩ := Prod.mk.inj h2
  exact ⟨j, ⟨hj, Or.inr h1⟩, h2, h3⟩

def isPath (p : List Byte) : Except Err PReply → Bool
  | .ok (.path q) => decide (q = p)
  | _ => false
theorem isPath_eq {p : List Byte} {r : Except Err PReply} (h : isPath p r = true) : r = .ok (.path p) := by
  rcases r with e | a
  · cases h
  · cases a <;> first | cases h | (unfold isPath at h; rw [of_decide_eq_true h])

theorem demo_cwd_values : isPath [47#8, 100#8] (pexec demoPC 5 (.getcwd 10) demoS).1 = true ∧ (demoS.vols 0).mounted = true ∧
    ((demoS.slot 0).task, (demoS.slot 0).cwdVol, (demoS.slot 0).cwdIno) = (5, 0, 4) := by decide +kernel
theorem demo_cwd : CwdOf demoPC demoS 5 0 4 := cwdOf_of (j := 0) (by decide) demo_cwd_values.2.2
theorem demo_clear : Clear demoPC [47#8, 100#8] 0 := by
  intro i hi hm
  have hi : i < 2 := hi
  rcases Nat.lt_or_ge i 1 with h | h
  · obtain rfl : i = 0 := by omega
    exact Nat.le_refl _
  · obtain rfl : i = 1 := by omega
    rcases hm with hm | hm | ⟨r, hm⟩
    · cases hm
    · cases hm
    · cases hm

/-- `C52_getcwd`, `C52_chdir_back`: the current directory is "/d". -/
example : Permitted demoPC 5 (.getcwd 10) demoS ∧ pexec demoPC 5 (.getcwd 10) demoS = (.ok (.path [47#8, 100#8]), (pexec demoPC 5 (.getcwd 10) demoS).2) ∧
    Clear demoPC [47#8, 100#8] 0 ∧ (demoS.vols 0).mounted = true :=
  ⟨demoP (by simp) rfl _, pexec_eta (isPath_eq demo_cwd_values.1), demo_clear, demo_cwd_values.2.1⟩
example : (pexec demoPC 5 (.chdir [47#8, 100#8]) demoS).1 = .ok .unit :=
  ((C52_chdir_back demoPC_ok demoS_reach demo_inited demo_cwd (demoP (by simp) rfl _) demo_cwd_values.2.1 (pexec_eta (isPath_eq demo_cwd_values.1)) demo_clear).2 5 0 4 (by simp) demo_cwd).2.1

theorem demo_chdir : isUnit (pexec demoPC 5 (.chdir [47#8, 100#8]) demoS).1 = true := by decide +kernel
/-- `C52_getcwd_back`. -/
example : (pexec demoPC 5 (.getcwd 10) (pexec demoPC 5 (.chdir [47#8, 100#8]) demoS).2).1 = .ok (.path [47#8, 100#8]) :=
  C52_getcwd_back (vol' := 0) (cs := [[100#8]]) demoPC_ok demoS_reach demo_inited demo_cwd
    (by intro nm hn; rw [List.mem_singleton.1 hn]; exact ⟨by simp, by unfold Dotty; decide, by decide⟩) (by decide) demo_clear (demoP (by simp) rfl _)
    (pexec_eta (isUnit_eq demo_chdir)) (demoP (by simp) rfl _) (by decide)

/-- `C52_not_mounted`: the volume has been unmounted. -/
def offS : PSt := pruns demoPC [(6, .umount [] 1)] demoS
theorem offS_reach : PReach demoPC offS := PReach.steps rfl _ demoS_reach (by decide)
theorem off_values : offS.inited = true ∧ (offS.vols 0).mounted = false ∧ ((offS.slot 0).task, (offS.slot 0).cwdVol, (offS.slot 0).cwdIno) = (5, 0, 2) := by decide +kernel
example : (pexec demoPC 5 (.getcwd 3) offS).1 = .ok (.path [47#8]) := by
  have hw : CwdOf demoPC offS 5 0 2 := cwdOf_of (j := 0) (by decide) off_values.2.2
  exact C52_not_mounted demoPC_ok offS_reach off_values.1 hw (demoP (by simp) rfl _) (by simp) off_values.2.1

/-- On the volume with the empty prefix, the directory "m" has been made, and is the current one; "/m" is the prefix of the other volume. -/
def shadowL : List (Nat × PCall) := [(5, .chdir [47#8]), (5, .mkdir [109#8]), (5, .chdir [109#8])]
def shadowS : PSt := pruns demoPC shadowL demoS
theorem shadowS_reach : PReach demoPC shadowS := PReach.steps rfl shadowL demoS_reach (by decide)
theorem shadow_values : isPath [47#8, 109#8] (pexec demoPC 5 (.getcwd 10) shadowS).1 = true ∧ isUnit (pexec demoPC 5 (.chdir [47#8, 109#8]) shadowS).1 = true ∧
    ((shadowS.slot 0).task, (shadowS.slot 0).cwdVol, (shadowS.slot 0).cwdIno) = (5, 0, 5) ∧
    (((pexec demoPC 5 (.chdir [47#8, 109#8]) shadowS).2.slot 0).task, ((pexec demoPC 5 (.chdir [47#8, 109#8]) shadowS).2.slot 0).cwdVol,
      ((pexec demoPC 5 (.chdir [47#8, 109#8]) shadowS).2.slot 0).cwdIno) = (5, 1, 2) := by decide +kernel

/-- **C52** Without `Clear` it does not hold: a directory can have the name of another volume, and then the path that `red_getcwd` returns leads to that other
volume. -/
theorem C52_shadowed : PReach demoPC shadowS ∧ CwdOf demoPC shadowS 5 0 5 ∧ (pexec demoPC 5 (.getcwd 10) shadowS).1 = .ok (.path [47#8, 109#8]) ∧
    (pexec demoPC 5 (.chdir [47#8, 109#8]) shadowS).1 = .ok .unit ∧ CwdOf demoPC (pexec demoPC 5 (.chdir [47#8, 109#8]) shadowS).2 5 1 2 := by
  obtain ⟨h1, h2, h3, h4⟩ := shadow_values
  exact ⟨shadowS_reach, cwdOf_of (j := 0) (by decide) h3, isPath_eq h1, isUnit_eq h2,
    cwdOf_of (j := 0) (by decide) h4⟩

end RedFs.Props.PosixCwd
