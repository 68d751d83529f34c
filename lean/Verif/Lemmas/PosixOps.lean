import Verif.Lemmas.PosixBase
set_option linter.unusedSimpArgs false
set_option linter.unusedVariables false
set_option linter.unusedSectionVars false
/-!
Operations of the core on the current volume.
-/
namespace RedFs.Posix
open M Str Path Spec

variable {pc : PConf} {s s' s'' : PSt}

/-- The state after the current volume has changed to `v`. -/
def PSt.put (s : PSt) (v : Vol) : PSt := { s with vols := upd s.vols s.cur v }

theorem upd_same {α : Type} (f : Nat → α) (i : Nat) (x : α) : upd f i x i = x := if_pos rfl
theorem upd_other {α : Type} (f : Nat → α) {i j : Nat} (x : α) (h : j ≠ i) : upd f i x j = f j := if_neg h
theorem upd_id {α : Type} (f : Nat → α) (i : Nat) : upd f i (f i) = f := by
  funext j; unfold upd; split
  · rename_i h; rw [h]
  · rfl

theorem put_vols (s : PSt) (v : Vol) (i : Nat) : (s.put v).vols i = if i = s.cur then v else s.vols i := rfl
theorem put_id (s : PSt) : s.put (s.vols s.cur) = s := by
  show { s with vols := upd s.vols s.cur (s.vols s.cur) } = s
  rw [upd_id]

theorem onCur_run {α : Type} {m : Conf → VM α} {r : Except Err α} {v : Vol} (h : m (pc.conf s.cur) (s.vols s.cur) = (r, v)) :
    onCur pc m s = (r, s.put v) := by
  unfold onCur PSt.put; rw [h]

theorem onCur_eta {α : Type} (m : Conf → VM α) (s : PSt) :
    onCur pc m s = ((m (pc.conf s.cur) (s.vols s.cur)).1, s.put (m (pc.conf s.cur) (s.vols s.cur)).2) := rfl

theorem onCur_off {α : Type} {m : Conf → VM α} {r : Except Err α} (h : m (pc.conf s.cur) (s.vols s.cur) = (r, s.vols s.cur)) :
    onCur pc m s = (r, s) := by
  rw [onCur_run h, put_id]

/-- Nothing but caches is different. -/
structure Asked (pc : PConf) (s s' : PSt) : Prop where
  quiet : Quiet pc s s'
  cur : s'.cur = s.cur

theorem Asked.refl (pc : PConf) (s : PSt) : Asked pc s s := ⟨Quiet.refl _ _, rfl⟩
theorem Asked.trans (h : Asked pc s s') (h' : Asked pc s' s'') : Asked pc s s'' := ⟨h.quiet.trans h'.quiet, h'.cur.trans h.cur⟩

theorem asked_put {v : Vol} (h : Same (pc.conf s.cur) (s.vols s.cur) v) : Asked pc s (s.put v) := by
  refine ⟨⟨rfl, rfl, rfl, rfl, rfl, id, fun i hi => ?_⟩, rfl⟩
  rw [put_vols]
  split
  · rename_i e; rw [e]; exact h
  · exact Same.refl _ _

/-- The current volume. -/
abbrev PSt.c (pc : PConf) (s : PSt) : Conf := pc.conf s.cur
abbrev PSt.v (s : PSt) : Vol := s.vols s.cur
abbrev PSt.F (pc : PConf) (s : PSt) : Files := RedFs.files (pc.conf s.cur) (s.vols s.cur)

theorem Asked.mounted (h : Asked pc s s') (hn : s.cur < pc.n) : (s'.v).mounted = (s.v).mounted := by
  show (s'.vols s'.cur).mounted = _; rw [h.cur]; exact (h.quiet.vols _ hn).mounted
theorem Asked.files (h : Asked pc s s') (hn : s.cur < pc.n) (hm : s.v.mounted = true) : s'.F pc = s.F pc := by
  show RedFs.files (pc.conf s'.cur) (s'.vols s'.cur) = _; rw [h.cur]; exact (h.quiet.vols _ hn).files hm
theorem Asked.conf (h : Asked pc s s') : s'.c pc = s.c pc := by show pc.conf s'.cur = _; rw [h.cur]
theorem Asked.ro (h : Asked pc s s') (hn : s.cur < pc.n) : s'.v.readOnly = s.v.readOnly := by
  show (s'.vols s'.cur).readOnly = _; rw [h.cur]; exact (h.quiet.vols _ hn).ro

section
variable (hc : pc.Ok) (hi : PInv pc s) (hm : s.v.mounted = true)
include hc hi hm

theorem ask_lift {α : Type} {m : Conf → VM α} {Q : Except Err α → Prop} (h : Same (pc.conf s.cur) (s.vols s.cur) (m (pc.conf s.cur) (s.vols s.cur)).2 ∧ Q (m (pc.conf s.cur) (s.vols s.cur)).1) :
    ∃ r s', onCur pc m s = (r, s') ∧ Asked pc s s' ∧ Q r :=
  ⟨_, _, onCur_eta m s, asked_put h.1, h.2⟩

theorem onLookup (p : Nat) {name : List Byte} (hn : CStr.Ok name) :
    ∃ r s', onCur pc (fun c => coreLookup c p name) s = (r, s') ∧ Asked pc s s' ∧ Lookup (s.c pc) p (nameOf (s.c pc) name) (s.F pc) r :=
  ask_lift hc hi hm (lookup_typed (hc.sys _ hi.cur) (hc.posix _ hi.cur) (hi.reach _ hi.cur) hm p hn)
theorem onStat (i : Nat) : ∃ r s', onCur pc (fun c => coreStat c i) s = (r, s') ∧ Asked pc s s' ∧ Spec.Stat i (s.F pc) r :=
  ask_lift hc hi hm (stat_typed (hc.sys _ hi.cur) (hc.posix _ hi.cur) (hi.reach _ hi.cur) hm i)
theorem onDirRead (i pos : Nat) : ∃ r s', onCur pc (fun c => coreDirRead c i pos) s = (r, s') ∧ Asked pc s s' ∧ DirRead (s.c pc) i pos (s.F pc) r :=
  ask_lift hc hi hm (dirRead_typed (hc.sys _ hi.cur) (hc.posix _ hi.cur) (hi.reach _ hi.cur) hm i pos)
theorem onRead (i start len : Nat) : ∃ r s', onCur pc (fun c => coreFileRead c i start len) s = (r, s') ∧ Asked pc s s' ∧ Spec.Read i start len (s.F pc) r :=
  ask_lift hc hi hm (read_typed (hc.sys _ hi.cur) (hc.posix _ hi.cur) (hi.reach _ hi.cur) hm i start len)
end

/-! ### Paths, on a volume that may or may not be mounted -/

theorem lookup_off {c : Conf} {v : Vol} (h : v.mounted = false) (p : Nat) (n : List Byte) : coreLookup c p n v = (.error .einval, v) := whenMounted_off h
theorem stat_off {c : Conf} {v : Vol} (h : v.mounted = false) (p : Nat) : coreStat c p v = (.error .einval, v) := whenMounted_off h
theorem dirParent_off {c : Conf} {v : Vol} (h : v.mounted = false) (p : Nat) : coreDirParent c p v = (.error .einval, v) := whenMounted_off h

theorem mustBeDir_off {c : Conf} {v : Vol} (h : v.mounted = false) (i : Nat) :
    inodeMustBeDir c i v = (.error .einval, v) ∨ inodeMustBeDir c i v = (.ok (), v) := by
  unfold inodeMustBeDir
  split
  · left; rw [run_bind, stat_off h]
  · right; rfl

theorem walkLoop_off {c : Conf} {v : Vol} (h : v.mounted = false) {cwd want : Bool} (fuel : Nat) : ∀ {s : List Byte} (hs : CStr.Ok s) (hf : s.length < fuel)
    (ino pino : Nat) (last : List Byte), walkLoop c cwd want fuel s ino pino last v = (.error .einval, v) ∨ ∃ a, walkLoop c cwd want fuel s ino pino last v = (.ok a, v) := by
  induction fuel with
  | zero => intro s hs hf; omega
  | succ fuel ih =>
    intro s hs hf ino pino last
    unfold walkLoop
    dsimp only
    have hok := skipSep_ok (sep := c.sep) hs
    have hlen := skipSep_length c.sep s
    have hidem := skipSep_idem c.sep s
    generalize skipSep c.sep s = t at *
    by_cases h0 : t = []
    · rw [if_pos h0]; exact Or.inr ⟨_, rfl⟩
    rw [if_neg h0]
    have hn2 := (comps_name (c := c) hidem h0).2
    have hnl := nameLen_nameOf (c := c) hok
    have hnlt : 0 < (nameOf c t).length := List.length_pos_iff.2 hn2
    have htl : 0 < t.length := List.length_pos_iff.2 h0
    split
    · rw [run_bind]
      rcases mustBeDir_off h ino with e | e
      · rw [e]; exact Or.inl rfl
      · rw [e]; exact ih (drop_ok hok 1) (by simp; omega) ..
    · split
      · rw [run_bind]
        rcases mustBeDir_off h ino with e | e
        · rw [e]; exact Or.inl rfl
        · rw [e]; dsimp only
          rw [run_bind, dirParent_off h]; exact Or.inl rfl
      · rw [hnl]
        split
        · rw [run_bind, lookup_off h]; exact Or.inl rfl
        · rw [run_bind]; exact ih (drop_ok hok _) (by simp; omega) ..

theorem pathWalk_off {c : Conf} {v : Vol} (h : v.mounted = false) {cwd want : Bool} {s : List Byte} (hs : CStr.Ok s) (start : Nat) (re : Option Err) :
    (∃ e, pathWalk c cwd start s re want v = (.error e, v) ∧ (e = .einval ∨ re = some e)) ∨
    ∃ a, cwd = false ∧ pathWalk c cwd start s re want v = (.ok a, v) := by
  unfold pathWalk
  by_cases hst : (if cwd then start = 0 else start ≠ 2)
  · rw [if_pos hst]; exact Or.inl ⟨_, rfl, Or.inl rfl⟩
  · rw [if_neg hst]
    cases cwd with
    | true => rw [if_pos rfl, run_bind, dirParent_off h]; exact Or.inl ⟨_, rfl, Or.inl rfl⟩
    | false =>
      rw [if_neg (by simp), run_bind]
      simp only [run_pure]
      rcases walkLoop_off (c := c) h (cwd := false) (want := want) (s.length + 1) hs (Nat.lt_succ_self _) start 0 s with e | ⟨⟨i, p, l⟩, e⟩
      · left; refine ⟨.einval, ?_, Or.inl rfl⟩; rw [run_bind, e]
      · rw [run_bind, e]
        dsimp only
        cases re with
        | none => exact Or.inr ⟨_, trivial, rfl⟩
        | some re =>
          dsimp only
          split
          · exact Or.inl ⟨_, rfl, Or.inr rfl⟩
          · exact Or.inr ⟨_, trivial, rfl⟩

theorem pathLookup_off {c : Conf} {v : Vol} (h : v.mounted = false) {cwd : Bool} {s : List Byte} (hs : CStr.Ok s) (start : Nat) :
    pathLookup c cwd start s v = (.error .einval, v) ∨ ∃ a, cwd = false ∧ pathLookup c cwd start s v = (.ok a, v) := by
  unfold pathLookup
  rw [run_bind]
  rcases pathWalk_off (c := c) h (cwd := cwd) (want := true) hs start none with ⟨e, e1, e2⟩ | ⟨⟨i, p, l⟩, hcw, e1⟩
  · rw [e1]; left; rcases e2 with rfl | e2
    · rfl
    · cases e2
  · rw [e1]; exact Or.inr ⟨i, hcw, rfl⟩

theorem pathToName_off {c : Conf} {v : Vol} (h : v.mounted = false) {cwd : Bool} {s : List Byte} (hs : CStr.Ok s) (start : Nat) (re : Err) :
    (∃ e, pathToName c cwd start s re v = (.error e, v) ∧ (e = .einval ∨ e = re)) ∨ ∃ a, pathToName c cwd start s re v = (.ok a, v) := by
  unfold pathToName
  rw [run_bind]
  rcases pathWalk_off (c := c) h (cwd := cwd) (want := false) hs start (some re) with ⟨e, e1, e2⟩ | ⟨⟨i, p, l⟩, hcw, e1⟩
  · rw [e1]; left; refine ⟨_, rfl, ?_⟩
    rcases e2 with rfl | e2
    · exact Or.inl rfl
    · injection e2 with e2; exact Or.inr e2.symm
  · rw [e1]; dsimp only
    rw [if_neg (by rw [hcw]; simp)]
    exact Or.inr ⟨_, rfl⟩

theorem StartOk.quiet {vol start : Nat} {l : List Byte} (h : StartOk pc s vol start l) (q : Quiet pc s s') : StartOk pc s' vol start l := by
  refine ⟨h.lt, fun hm => ?_, fun hm => h.down ((q.vols _ h.lt).mounted.symm.trans hm), h.root, h.str, h.some⟩
  have hm' := (q.vols _ h.lt).mounted.symm.trans hm
  rw [(q.vols _ h.lt).files hm']; exact h.up hm'

/-- `RedPathToName` on the current volume. -/
theorem onToName (hc : pc.Ok) (hi : PInv pc s) {start : Nat} {l : List Byte} (hs : StartOk pc s s.cur start l) (re : Err) :
    ∃ r s', onCur pc (fun c => pathToName c pc.cwd start l re) s = (r, s') ∧ Asked pc s s' ∧
      (s.v.mounted = true → ToName (s.c pc) (s.F pc) (pc.cwd = true) start re (comps pc.sep l) (r.map fun x => (x.1, nameOf (s.c pc) x.2)) ∧ ∀ p l, r = .ok (p, l) → CStr.Ok l) ∧
      (s.v.mounted = false → ∀ e, r = .error e → e = .einval ∨ e = re) := by
  cases hm : s.v.mounted with
  | true =>
    obtain ⟨r, v', e, h1, h2, h3⟩ := pathToName_spec (hc.sys _ hi.cur) (hc.posix _ hi.cur) (hi.reach _ hi.cur) hm (cwd := pc.cwd) hs.str (hs.up hm) hs.root
      (by rw [hc.sep _ hi.cur]; exact hs.some) re
    rw [hc.sep _ hi.cur] at h2
    exact ⟨r, _, onCur_run e, asked_put h1, fun _ => ⟨h2, h3⟩, (fun h => by cases h)⟩
  | false =>
    rcases pathToName_off (c := pc.conf s.cur) hm (cwd := pc.cwd) hs.str start re with ⟨e, e1, e2⟩ | ⟨a, e1⟩
    · refine ⟨.error e, s, onCur_off e1, Asked.refl _ _, (fun h => by cases h), fun _ e' h => ?_⟩
      injection h with h; exact h ▸ e2
    · exact ⟨.ok a, s, onCur_off e1, Asked.refl _ _, (fun h => by cases h), fun _ e' h => by cases h⟩

/-- `RedPathLookup` on the current volume. -/
theorem onPathLookup (hc : pc.Ok) (hi : PInv pc s) {start : Nat} {l : List Byte} (hs : StartOk pc s s.cur start l) :
    ∃ r s', onCur pc (fun c => pathLookup c pc.cwd start l) s = (r, s') ∧ Asked pc s s' ∧
      (s.v.mounted = true → Walk (s.c pc) (s.F pc) (pc.cwd = true) start (comps pc.sep l) r) ∧
      (s.v.mounted = false → (r = .error .einval ∨ ∃ i, pc.cwd = false ∧ r = .ok i)) := by
  cases hm : s.v.mounted with
  | true =>
    obtain ⟨r, v', e, h1, h2⟩ := pathLookup_spec (hc.sys _ hi.cur) (hc.posix _ hi.cur) (hi.reach _ hi.cur) hm (cwd := pc.cwd) hs.str (hs.up hm) hs.root
    rw [hc.sep _ hi.cur] at h2
    exact ⟨r, _, onCur_run e, asked_put h1, fun _ => h2, (fun h => by cases h)⟩
  | false =>
    rcases pathLookup_off (c := pc.conf s.cur) hm (cwd := pc.cwd) hs.str start with e1 | ⟨a, h1, e1⟩
    · exact ⟨.error .einval, s, onCur_off e1, Asked.refl _ _, (fun h => by cases h), fun _ => Or.inl rfl⟩
    · exact ⟨.ok a, s, onCur_off e1, Asked.refl _ _, (fun h => by cases h), fun _ => Or.inr ⟨a, h1, rfl⟩⟩

/-! ### Changes -/

/-- An inode in use is kept. -/
def Keeps (F F' : Files) (i : Nat) : Prop := ∀ f, F i = some f → ∃ f', F' i = some f' ∧ f'.mode = f.mode

theorem Keeps.refl (F : Files) (i : Nat) : Keeps F F i := fun f h => ⟨f, h, rfl⟩
theorem Keeps.eq {F F' : Files} {i : Nat} (h : F' i = F i) : Keeps F F' i := fun f hf => ⟨f, h.trans hf, rfl⟩
theorem Keeps.dir {F F' : Files} {p : Nat} (h : DirKept F F' p) : Keeps F F' p := by
  obtain ⟨f, f', h1, h2, _⟩ := h
  intro g hg
  have := h1.1; rw [hg] at this; injection this with this; subst this
  exact ⟨f', h2.1, h2.2.trans h1.2.symm⟩

theorem create_keeps {c : Conf} {p : Nat} {nm : List Byte} {d : Bool} {F F' : Files} {r : Except Err Nat} (h : Create c p nm d F r F') (i : Nat) : Keeps F F' i := by
  cases r with
  | error e => rw [h.1]; exact Keeps.refl _ _
  | ok k =>
    obtain ⟨_, _, _, h0, _, _, hd, ho, _⟩ := h
    by_cases h1 : i = k
    · subst h1; intro f hf; rw [h0] at hf; cases hf
    by_cases h2 : i = p
    · subst h2; exact Keeps.dir hd
    exact Keeps.eq (ho i h1 h2)

theorem link_keeps {c : Conf} {p k : Nat} {nm : List Byte} {F F' : Files} {r : Except Err Unit} (h : Link c p nm k F r F') (i : Nat) : Keeps F F' i := by
  cases r with
  | error e => rw [h.1]; exact Keeps.refl _ _
  | ok u =>
    obtain ⟨_, _, f, h0, _, h3, hd, ho, _⟩ := h
    by_cases h1 : i = k
    · subst h1; intro g hg; have := h0.1; rw [hg] at this; injection this with this; subst this; exact ⟨_, h3, rfl⟩
    by_cases h2 : i = p
    · subst h2; exact Keeps.dir hd
    exact Keeps.eq (ho i h1 h2)

theorem set_keeps {F : Files} {k : Nat} {f g : AFile} (h : F k = some f) (hg : g.mode = f.mode) (i : Nat) : Keeps F (F.set k (some g)) i := by
  by_cases h1 : i = k
  · subst h1; intro f' hf'; rw [h] at hf'; injection hf' with hf'; subst hf'; exact ⟨g, by simp [Files.set], hg⟩
  · exact Keeps.eq (by simp [Files.set, h1])

theorem write_keeps {c : Conf} {k st len : Nat} {b : Nat → Byte} {F F' : Files} {r : Except Err Nat} (h : Write c k st len b F r F') (i : Nat) : Keeps F F' i := by
  cases r with
  | error e => rw [h.1]; exact Keeps.refl _ _
  | ok n => obtain ⟨f, h0, _, _, _, rfl⟩ := h; exact set_keeps h0.1 (by unfold AFile.put; split <;> rfl) i

theorem truncate_keeps {c : Conf} {k size : Nat} {F F' : Files} {r : Except Err Unit} (h : Truncate c k size F r F') (i : Nat) : Keeps F F' i := by
  cases r with
  | error e => rw [h.1]; exact Keeps.refl _ _
  | ok n => obtain ⟨f, h0, _, rfl⟩ := h; exact set_keeps h0.1 (by unfold AFile.truncate; rfl) i

theorem unlink_keeps {c : Conf} {p : Nat} {nm : List Byte} {F F' : Files} {r : Except Err Unit} (h : Unlink c p nm F r F') (i : Nat) :
    Keeps F F' i ∨ ∃ f, Has c F p nm i ∧ F i = some f ∧ f.nlink ≤ 1 := by
  cases r with
  | error e => left; rw [h.1]; exact Keeps.refl _ _
  | ok u =>
    obtain ⟨k, f, h0, h1, _, h3, hd, ho, _⟩ := h
    by_cases h4 : i = k
    · subst h4
      by_cases h5 : 1 < f.nlink
      · left; intro g hg; rw [h1] at hg; injection hg with hg; subst hg
        exact ⟨{ f with nlink := f.nlink - 1 }, by rw [h3]; unfold unlinked; rw [if_pos h5], rfl⟩
      · exact Or.inr ⟨f, h0, h1, by omega⟩
    by_cases h2 : i = p
    · subst h2; exact Or.inl (Keeps.dir hd)
    exact Or.inl (Keeps.eq (ho i h4 h2))

theorem rename_keeps {c : Conf} {p p' : Nat} {nm nm' : List Byte} {F F' : Files} {r : Except Err Unit} (h : Rename c p nm p' nm' F r F') (i : Nat) :
    Keeps F F' i ∨ ∃ f, c.renameAtomic = true ∧ Has c F p' nm' i ∧ F i = some f ∧ f.nlink ≤ 1 := by
  cases r with
  | error e => left; rw [h.1]; exact Keeps.refl _ _
  | ok u =>
    rcases h with ⟨h, _⟩ | ⟨k, f, h0, h1, _, _, _, h3, _, hd, hd', _, h4⟩
    · left; rw [h]; exact Keeps.refl _ _
    by_cases e1 : i = p
    · subst e1; exact Or.inl (Keeps.dir hd)
    by_cases e2 : i = p'
    · subst e2; exact Or.inl (Keeps.dir hd')
    by_cases e3 : i = k
    · subst e3; left; intro g hg; rw [h1] at hg; injection hg with hg; subst hg; exact ⟨_, h3, rfl⟩
    rcases h4 with ⟨_, h4⟩ | ⟨j, g, a1, a2, a3, _, _, _, _, _, a4, a5⟩
    · exact Or.inl (Keeps.eq (h4 i e3 e1 e2))
    · by_cases e4 : i = j
      · subst e4
        by_cases h5 : 1 < g.nlink
        · left; intro g' hg; rw [a3] at hg; injection hg with hg; subst hg
          exact ⟨{ g with nlink := g.nlink - 1 }, by rw [a4]; unfold unlinked; rw [if_pos h5], rfl⟩
        · exact Or.inr ⟨g, a1, a2, a3, by omega⟩
      · exact Or.inl (Keeps.eq (a5 i e3 e4 e1 e2))

/-- The files of the current volume change, but those in use are kept. -/
theorem PInv.put (h : PInv pc s) {v : Vol} (hr : Reach (s.c pc) v) (hm : s.v.mounted = true) (hm' : v.mounted = true)
    (hk : ∀ i, InUse pc s s.cur i → Keeps (s.F pc) (RedFs.files (s.c pc) v) i) : PInv pc (s.put v) := by
  refine ⟨fun i hi => ?_, h.cur, fun hi i hn => ?_, fun hi i hn h0 => ?_, fun hi hc i hn => ?_, h.task, fun i hi => ?_⟩
  · rw [put_vols]; split
    · rename_i e; subst e; exact hr
    · exact h.reach i hi
  · have := h.down hi _ h.cur; rw [hm] at this; cases this
  · have H := h.handle hi i hn h0
    refine H.congr ?_ ?_
    · rw [put_vols]; split
      · rename_i e; rw [hm', e]; exact hm.symm
      · rfl
    · rw [put_vols]; split
      · rename_i e
        intro f hf
        have := hk (s.handle i).ino (Or.inl ⟨i, hn, rfl, e⟩)
        rw [e] at hf
        obtain ⟨f', h1, h2⟩ := this f hf
        exact ⟨f', by rw [e]; exact h1, h2⟩
      · intro f hf; exact ⟨f, hf, rfl⟩
  · have H := h.slot hi hc i hn
    refine H.congr ?_ ?_
    · rw [put_vols]; split
      · rename_i e; rw [hm', e]; exact hm.symm
      · rfl
    · rw [put_vols]; split
      · rename_i e
        intro _ f hf
        have := hk (s.slot i).cwdIno (Or.inr ⟨hc, i, hn, rfl, e⟩)
        rw [e] at hf
        obtain ⟨f', h1, h2⟩ := this f hf
        exact ⟨f', by rw [e]; exact h1, h2⟩
      · intro _ f hf; exact ⟨f, hf, rfl⟩
  · have := h.gen i hi
    refine ⟨this.1, ?_⟩
    rw [put_vols]; split
    · rename_i e; subst e; intro _; exact this.2 hm
    · exact this.2

theorem Mod.keeps {c : Conf} {α : Type} {ev : Event} {R : Files → Except Err α → Files → Prop} {v v' : Vol} {r : Except Err α} (h : Mod c ev R v r v') {i : Nat}
    (hR : R (RedFs.files c v) r (RedFs.files c v') → Keeps (RedFs.files c v) (RedFs.files c v') i) : Keeps (RedFs.files c v) (RedFs.files c v') i := by
  rcases h.rel with ⟨_, _, h⟩ | ⟨_, h⟩
  · rw [h]; exact Keeps.refl _ _
  · exact hR h

theorem onVol_put {α : Type} {ev : Event} {R : Files → Except Err α → Files → Prop} {r : Except Err α} {v : Vol} (hi : PInv pc s) (hm : s.v.mounted = true)
    (h : Mod (s.c pc) ev R s.v r v) : OnVol pc s.cur s (s.put v) (Rw s s.cur R r) ∧ (s.put v).handle = s.handle := by
  refine ⟨⟨hi.cur, rfl, rfl, rfl, fun i hi hne => ?_, hm, ?_, ?_, ?_, ?_⟩, rfl⟩
  · rw [put_vols, if_neg hne]; exact Same.refl _ _
  · rw [put_vols, if_pos rfl]; exact h.mounted
  · rw [put_vols, if_pos rfl]; exact h.ro
  · rw [put_vols, if_pos rfl]; exact h.mask
  · unfold Rw PSt.files
    rw [put_vols, if_pos rfl]
    rcases h.rel with ⟨h1, h2, h3⟩ | ⟨h1, h2⟩
    · rw [if_pos h1]; exact ⟨h2, h3⟩
    · rw [if_neg (by rw [h1]; simp)]; exact h2

theorem OnVol.left {vol : Nat} {R : Files → Files → Prop} (q : Quiet pc s s') (h : OnVol pc vol s' s'' R) : OnVol pc vol s s'' R := by
  have hs := q.vols _ h.lt
  have hm := hs.mounted.symm.trans h.up
  refine ⟨h.lt, h.inited.trans q.inited, h.slot.trans q.slot, h.gen.trans q.gen, fun i hi hne => (q.vols i hi).trans (h.others i hi hne), hm, h.up',
    h.ro.trans hs.ro, h.mask.trans hs.mask, ?_⟩
  have := h.rel
  unfold PSt.files at this ⊢
  rw [hs.files hm] at this; exact this

end RedFs.Posix
