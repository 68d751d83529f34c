import Verif.Lemmas.PosixDir
set_option linter.unusedSimpArgs false
set_option linter.unusedVariables false
set_option linter.unusedSectionVars false
/-!
`red_open` and `red_opendir`.
-/
namespace RedFs.Posix
open M Str Path Spec

section
variable (pc : PConf)


def openFin (idx vol ino mode m : Nat) : PM Int := do
  modify fun s => s.setHandle idx
        { ino := ino, vol := vol, dir := decide (m = modeDir), readable := has mode oRdonly || has mode oRdwr
          writeable := has mode oWronly || has mode oRdwr, appending := has mode oAppend, off := 0 }
  let s ← get
  match fildesPack pc idx vol s with
      | none => fail .efubar
      | some fd => pure fd

def openCheck (mode ino : Nat) (type : FType) (created : Bool) : PM Nat := 
        if created then pure 0
        else do
          let st ← onCur pc fun c => coreStat c ino
          modeTypeCheck st.mode type
          if st.mode = modeDir ∧ has mode oRdonly = false then fail .eisdir
          else do
            if has mode oTrunc then onCur pc fun c => coreFileTruncate c ino 0 else pure ()
            pure st.mode
def openIno (start : Nat) (localPath : List Byte) (mode : Nat) : PM (Nat × Bool) := 
        if has mode oCreat then do
          let (pino, name) ← onCur pc fun c => pathToName c pc.cwd start localPath .eisdir
          match ← attempt (onCur pc fun c => coreCreate c pino name false) with
          | .ok i => pure (i, true)
          | .error e =>
            if e = .eexist ∧ has mode oExcl = false then do
              let i ← onCur pc fun c => coreLookup c pino name
              pure (i, false)
            else fail e
        else do
          let i ← onCur pc fun c => pathLookup c pc.cwd start localPath
          pure (i, false)

theorem fildesOpen_eq (t : Nat) (path : List Byte) (mode : Nat) (type : FType) : fildesOpen pc t path mode type = (do
  let (vol, start, localPath) ← startingPoint pc t path
  let v ← curVol
  if v.readOnly = true ∧ mode ≠ oRdonly then fail .erofs
  else do
    let s ← get
    match (List.range pc.handles).find? fun i => (s.handle i).ino == 0 with
    | none => fail .emfile
    | some idx => do
      let (ino, created) ← openIno pc start localPath mode
      let m ← openCheck pc mode ino type created
      openFin pc idx vol ino mode m) := rfl
end

variable {pc : PConf} {s s' s'' : PSt}

/-- The files are as they were; the current volume is `vol`. -/
structure Mid (pc : PConf) (vol : Nat) (s s' : PSt) : Prop where
  onVol : OnVol pc vol s s' (fun F F' => F' = F)
  handle : s'.handle = s.handle
  cur : s'.cur = vol
  inv : PInv pc s'

theorem OnVol.trans {vol : Nat} {R : Files → Files → Prop} (o : OnVol pc vol s s' (fun F F' => F' = F)) (o' : OnVol pc vol s' s'' R) : OnVol pc vol s s'' R := by
  refine ⟨o.lt, o'.inited.trans o.inited, o'.slot.trans o.slot, o'.gen.trans o.gen, fun i hi hne => (o.others i hi hne).trans (o'.others i hi hne), o.up, o'.up',
    o'.ro.trans o.ro, o'.mask.trans o.mask, ?_⟩
  have := o'.rel
  rw [show s'.files pc vol = s.files pc vol from o.rel] at this; exact this

theorem Mid.mounted {vol : Nat} (m : Mid pc vol s s') : s'.v.mounted = true := by
  show (s'.vols s'.cur).mounted = true; rw [m.cur]; exact m.onVol.up'

theorem Mid.asked {vol : Nat} (m : Mid pc vol s s') (a : Asked pc s' s'') : Mid pc vol s s'' := by
  have hi := m.inv.quiet a.quiet
  refine ⟨m.onVol.trans (onVol_quiet m.inv a.quiet m.onVol.lt m.onVol.up' rfl), a.quiet.handle.trans m.handle, a.cur.trans m.cur, hi⟩

theorem Mid.files {vol : Nat} (m : Mid pc vol s s') : s'.F pc = s.files pc vol ∧ s'.c pc = pc.conf vol := by
  obtain ⟨o, _, c, _⟩ := m
  subst c
  exact ⟨o.rel, rfl⟩

section
variable (hc : pc.Ok) (hi : PInv pc s) (hin : s.inited = true)
include hc hi hin

/-- The handle is filled in. -/
theorem openFin_spec {idx vol i mode m : Nat} {R : Files → Files → Prop} (o : OnVol pc vol s s' R) (ho : s'.handle = s.handle) (hi' : PInv pc s')
    (hk : idx < pc.handles) (h0 : (s.handle idx).ino = 0) (hfirst : ∀ j, j < idx → (s.handle j).ino ≠ 0) {f : AFile}
    (hf : s'.files pc vol i = some f) (hm : m = modeDir ↔ f.mode = modeDir) (hro : f.mode = modeDir → (has mode oWronly || has mode oRdwr) = false) :
    ∃ r s'', openFin pc idx vol i mode m s' = (r, s'') ∧ PInv pc s'' ∧ OnVol pc vol s s'' R ∧ Opened pc s vol i mode (decide (f.mode = modeDir)) r s'' ∧
      ∀ fd, r = .ok fd → IsFd pc s'' fd idx ∧ (s''.handle idx).vol = vol ∧ fd = s''.fd vol idx := by
  have hn := hc.n; have hh := hc.handles
  have hg := hi'.gen vol o.lt
  have hg1 := hg.2 o.up'
  unfold openFin
  rw [run_bind, run_modify]; dsimp only
  rw [run_bind, run_get]; dsimp only
  have hgen : s'.gen = s.gen := o.gen
  have hpack : ∀ x, fildesPack pc idx vol (s'.setHandle idx x) = some (s.fd vol idx) := by
    intro x
    unfold fildesPack
    rw [if_neg (by have := o.lt; omega)]
    dsimp only
    have e : (s'.setHandle idx x).gen vol = s.gen vol := by show s'.gen vol = _; rw [hgen]
    have ev := o.lt
    rw [e, pack_eq (by omega) (by omega)]
    rw [hgen] at hg1
    unfold fdMin
    rw [if_neg (by omega)]
    rfl
  rw [hpack]
  dsimp only
  have hdm : decide (m = modeDir) = decide (f.mode = modeDir) := by by_cases h : m = modeDir <;> simp [h, hm.1, ← hm]
  have hne : i ≠ 0 := by
    have := file_valid (hc.sys _ o.lt) (hc.posix _ o.lt) (hi'.reach _ o.lt) o.up' (i := i) (by rw [show RedFs.files _ _ i = some f from hf]; simp)
    intro e; subst e
    unfold Conf.inodeValid at this
    simp at this
  refine ⟨_, _, rfl, hi'.setHandle idx (fun _ => ⟨o.lt, o.up', ⟨f, hf, by simp [hdm]⟩, fun _ => Nat.zero_le _, fun hd => ?_⟩), setHandle_onVol o, ⟨idx, hk, h0, hfirst, rfl, ?_⟩, ?_⟩
  · rw [hdm] at hd; exact hro (of_decide_eq_true hd)
  · show upd s'.handle idx _ = _
    rw [ho, hdm]
  · intro fd hfd
    injection hfd with hfd; subst hfd
    have e1 : ∀ x, (s'.setHandle idx x).fd vol idx = s.fd vol idx := by intro x; show PSt.fd _ vol idx = _; unfold PSt.fd; show ((s'.gen vol * _ + _ + _ : Nat) : Int) = _; rw [hgen]
    refine ⟨⟨hk, ?_, ?_⟩, ?_, (e1 _).symm⟩
    · show (upd s'.handle idx _ idx).ino ≠ 0; rw [upd_same]; exact hne
    · have : ∀ (x : Handle), x.vol = vol → ((s'.setHandle idx x).handle idx).vol = vol := by
        intro x hx; show (upd s'.handle idx x idx).vol = vol; rw [upd_same]; exact hx
      rw [this _ rfl]; exact (e1 _).symm
    · show (upd s'.handle idx _ idx).vol = vol; rw [upd_same]

/-- An inode that exists is opened. -/
theorem openExisting_spec {idx vol i mode : Nat} {type : FType} (hty : type ≠ .file) (M : Mid pc vol s s') 
    (hk : idx < pc.handles) (h0 : (s.handle idx).ino = 0) (hfirst : ∀ j, j < idx → (s.handle j).ino ≠ 0) 
    (hf : s.files pc vol i ≠ none) (hro : has mode oRdonly = true → (has mode oWronly || has mode oRdwr) = false) :
    ∃ r s'', (do let m ← openCheck pc mode i type false; openFin pc idx vol i mode m : PM Int) s' = (r, s'') ∧ PInv pc s'' ∧ OpenExisting pc vol i mode type s r s'' ∧
      ∀ fd, r = .ok fd → IsFd pc s'' fd idx ∧ (s''.handle idx).vol = vol ∧ fd = s''.fd vol idx := by
  unfold openCheck
  rw [if_neg (by simp), run_bind, run_bind]
  obtain ⟨r, s1, e1, a1, st⟩ := onStat hc M.inv M.mounted i
  rw [e1]
  have M1 := M.asked a1
  rw [M.files.1] at st
  rcases r with x | st0
  · exact absurd st.2 hf
  obtain ⟨f, hf1, _, hmode, _⟩ := st
  dsimp only
  rw [run_bind]
  have hv := M.onVol.lt
  have hms := M.onVol.up
  rcases file_kind (hc.sys _ hv) (hc.posix _ hv) (hi.reach _ hv) hms hf with ⟨g, hg⟩
  have hfg : g = f := by
    rcases hg with hg | hg <;> · have e1 := hg.1; rw [show RedFs.files (pc.conf vol) (s.vols vol) i = some f from hf1] at e1; exact (Option.some.inj e1).symm
  subst hfg
  unfold modeTypeCheck
  rw [if_neg (by simp [hty])]
  by_cases hnd : type = .dir ∧ st0.mode = modeReg
  · rw [if_pos hnd]
    refine ⟨_, _, rfl, M1.inv, Or.inl ⟨hnd.1, ⟨g, hf1, hmode ▸ hnd.2⟩, rfl, M1.onVol, M1.handle⟩, (fun fd h => by cases h)⟩
  rw [if_neg hnd]
  simp only [run_pure]
  by_cases hd : st0.mode = modeDir ∧ has mode oRdonly = false
  · rw [if_pos hd]
    exact ⟨_, _, rfl, M1.inv, Or.inr (Or.inl ⟨hd.2, ⟨g, hf1, hmode ▸ hd.1⟩, rfl, M1.onVol, M1.handle⟩), (fun fd h => by cases h)⟩
  rw [if_neg hd]
  have hA : g.mode = modeDir → has mode oRdonly = true := by
    intro h; cases hh : has mode oRdonly with
    | true => rfl
    | false => exact absurd ⟨hmode.trans h, hh⟩ hd
  have hB : type = .dir → g.mode = modeDir := by
    intro h
    rcases hg with hg | hg
    · exact absurd ⟨h, hmode.trans hg.2⟩ hnd
    · exact hg.2
  have hro' : g.mode = modeDir → (has mode oWronly || has mode oRdwr) = false := fun h => hro (hA h)
  cases htr : has mode oTrunc with
  | false =>
    rw [if_neg (by simp)]
    simp only [run_pure]
    have hf2 : s1.files pc vol i = some g := by rw [show s1.files pc vol = s.files pc vol from M1.onVol.rel]; exact hf1
    obtain ⟨r, s2, e2, i2, o2, op, hfd⟩ := openFin_spec hc hi hin M1.onVol M1.handle M1.inv hk h0 hfirst (mode := mode) (m := st0.mode) hf2 (by rw [hmode]) hro'
    exact ⟨r, s2, e2, i2, Or.inr (Or.inr (Or.inl ⟨g, hf1, hA, hB, htr, o2, op⟩)), hfd⟩
  | true =>
    rw [if_pos rfl, run_bind]
    obtain ⟨r, s2, e2, i2, o2, ho2, hcur2⟩ := effect_step hc M1.inv (m := fun c => coreFileTruncate c i 0) (R := Truncate (pc.conf vol) i 0) (Quiet.refl _ _) M1.cur M1.mounted
      (by have := M1.cur; have hi1 := M1.inv; have hm1 := M1.mounted; subst this; exact truncate_typed (hc.sys _ hi1.cur) (hc.posix _ hi1.cur) (hi1.reach _ hi1.cur) hm1 i 0)
      (fun r F' R i _ => truncate_keeps R i)
    have o3 := M1.onVol.trans o2
    have hrel : Rw s vol (Truncate (pc.conf vol) i 0) r (s.files pc vol) (s2.files pc vol) := by
      have := o3.rel; unfold Rw at this ⊢; rw [M1.onVol.ro] at this; exact this
    have o4 : OnVol pc vol s s2 (Rw s vol (Truncate (pc.conf vol) i 0) r) := { o3 with rel := hrel }
    have ho4 : s2.handle = s.handle := ho2.trans M1.handle
    rw [e2]
    rcases r with x | u
    · exact ⟨_, _, rfl, i2, Or.inr (Or.inr (Or.inr ⟨g, _, hf1, hA, hB, htr, o4, Or.inl ⟨x, rfl, rfl, ho4⟩⟩)), (fun fd h => by cases h)⟩
    · dsimp only
      simp only [run_pure]
      have hf2 : ∃ g', s2.files pc vol i = some g' ∧ g'.mode = g.mode := by
        unfold Rw at hrel
        split at hrel
        · cases hrel.1
        · exact truncate_keeps hrel i g hf1
      obtain ⟨g', h1, h2⟩ := hf2
      obtain ⟨r, s3, e3, i3, o5, op, hfd⟩ := openFin_spec hc hi hin o4 ho4 i2 hk h0 hfirst (mode := mode) (m := st0.mode) h1 (by rw [hmode, h2]) (by rw [h2]; exact hro')
      rw [h2] at op
      exact ⟨r, s3, e3, i3, Or.inr (Or.inr (Or.inr ⟨g, _, hf1, hA, hB, htr, o5, Or.inr ⟨rfl, op⟩⟩)), hfd⟩

theorem has_one {m b : Nat} (h : has m b = true) (hb : oRdonly &&& b = 0) : m ≠ oRdonly := by
  rintro rfl; unfold has at h; rw [hb] at h; simp at h

/-- `FildesOpen` -/
theorem fildesOpen_spec {t k : Nat} (ht : SlotOf pc t s k) {path : List Byte} (hs : CStr.Ok path) {mode : Nat} {type : FType} (hty : type ≠ .file)
    (hro : has mode oRdonly = true → (has mode oWronly || has mode oRdwr) = false) :
    ∃ r s', fildesOpen pc t path mode type s = (r, s') ∧ PInv pc s' ∧ FildesOpenDoes pc t path mode type s r s' ∧
      ∀ fd, r = .ok fd → ∃ idx, IsFd pc s' fd idx ∧ fd = s'.fd (s'.handle idx).vol idx ∧ (s'.handle idx).vol < pc.n := by
  rw [fildesOpen_eq, run_bind]
  rcases start_step hc hi hin ht hs (Quiet.refl pc s) with ⟨e, s1, e1, q, h⟩ | ⟨vol, start, l, s1, e1, hcur, ha⟩
  · rw [e1]; exact ⟨_, _, rfl, hi.quiet q, Or.inl ⟨e, h, rfl, q⟩, (fun fd h => by cases h)⟩
  rw [e1]; dsimp only
  have q1 := ha.quiet
  have hi1 := hi.quiet q1
  rw [run_bind, show curVol s1 = (.ok (s1.vols s1.cur), s1) from rfl]; dsimp only
  have hv : vol < pc.n := ha.ok.lt
  rw [hcur, (q1.vols vol hv).ro]
  by_cases h1 : (s.vols vol).readOnly = true ∧ mode ≠ oRdonly
  · rw [if_pos h1]
    exact ⟨_, _, rfl, hi1, Or.inr ⟨vol, start, l, ha.from_, (fun _ => ⟨rfl, q1⟩), fun h => absurd h1 h⟩, (fun fd h => by cases h)⟩
  rw [if_neg h1, run_bind, run_get]; dsimp only
  rw [q1.handle]
  rcases hfind : (List.range pc.handles).find? (fun i => (s.handle i).ino == 0) with _ | idx
  · have hall : ∀ k, k < pc.handles → (s.handle k).ino ≠ 0 := by
      intro k hk; have := List.find?_eq_none.1 hfind k (List.mem_range.2 hk); simpa using this
    dsimp only
    exact ⟨_, _, rfl, hi1, Or.inr ⟨vol, start, l, ha.from_, (fun h => absurd h h1), fun _ => ⟨(fun _ => ⟨rfl, q1⟩), fun h => absurd hall h⟩⟩, (fun fd h => by cases h)⟩
  obtain ⟨h0, hk, hfirst⟩ : (s.handle idx).ino = 0 ∧ idx < pc.handles ∧ ∀ j, j < idx → (s.handle j).ino ≠ 0 := by
    rw [List.find?_range_eq_some] at hfind
    obtain ⟨a, b, c⟩ := hfind
    exact ⟨by simpa using a, by simpa using b, fun j hj => by have := c j hj; simpa using this⟩
  have hnall : ¬ ∀ k, k < pc.handles → (s.handle k).ino ≠ 0 := fun h => h idx hk h0
  dsimp only
  -- the whole from its parts
  have whole : ∀ {r : Except Err Int} {s' : PSt}, (has mode oCreat = true → 
      (∃ e, Names pc s t path .eisdir (.error e) ∧ Fails pc s r s' e) ∨
      ∃ p nm, Names pc s t path .eisdir (.ok (vol, p, nm)) ∧
       ((∃ i, OnVol pc vol s s' (fun F F' => Create (pc.conf vol) p nm false F (.ok i) F') ∧ Opened pc s vol i mode false r s') ∨
        (∃ e, r = .error e ∧ (e = .eexist → has mode oExcl = true) ∧
          OnVol pc vol s s' (fun F F' => Create (pc.conf vol) p nm false F (.error e) F') ∧ s'.handle = s.handle) ∨
        (∃ i, has mode oExcl = false ∧ Has (pc.conf vol) (s.files pc vol) p nm i ∧ OpenExisting pc vol i mode type s r s'))) →
      (has mode oCreat ≠ true → (∃ e, Finds pc s t path (.error e) ∧ Fails pc s r s' e) ∨
      ∃ i, Finds pc s t path (.ok (vol, i)) ∧ OpenExisting pc vol i mode type s r s') → FildesOpenDoes pc t path mode type s r s' :=
    fun hA hB => Or.inr ⟨vol, start, l, ha.from_, (fun h => absurd h h1), fun _ => ⟨(fun h => absurd h hnall), fun _ => ⟨hA, hB⟩⟩⟩
  rw [run_bind]
  unfold openIno
  cases hcr : has mode oCreat with
  | false =>
    rw [if_neg (by simp), run_bind]
    rcases find_step hc hi ha hcur with ⟨e, s3, e3, a, h⟩ | ⟨i, s3, e3, a, h⟩
    · rw [e3]; exact ⟨_, _, rfl, hi.quiet (q1.trans a.quiet), whole (fun h => by rw [hcr] at h; cases h) (fun _ => Or.inl ⟨e, h, rfl, q1.trans a.quiet⟩), (fun fd h => by cases h)⟩
    rw [e3]; dsimp only
    simp only [run_pure]
    have q3 := q1.trans a.quiet
    have hcur3 : s3.cur = vol := a.cur.trans hcur
    have hi3 := hi.quiet q3
    have hmm3 := a.mounted hi1.cur
    rcases h with ⟨hm, h, hf⟩ | ⟨hm, _, h⟩
    · obtain ⟨_, _, hms⟩ := fileFns hc hi q3 hcur3 (hmm3.trans hm)
      obtain ⟨r, s4, e4, i4, oe, hfd⟩ := openExisting_spec hc hi hin (mode := mode) hty (s' := s3) ⟨onVol_quiet hi q3 hv hms rfl, q3.handle, hcur3, hi3⟩ hk h0 hfirst hf hro
      exact ⟨r, s4, e4, i4, whole (fun h => by rw [hcr] at h; cases h) (fun _ => Or.inr ⟨i, h, oe⟩), fun fd h => ⟨idx, (hfd fd h).1, by rw [(hfd fd h).2.1]; exact (hfd fd h).2.2, by rw [(hfd fd h).2.1]; exact hv⟩⟩
    · have hm3 : s3.v.mounted = false := hmm3.trans hm
      unfold openCheck
      rw [if_neg (by simp), run_bind, run_bind, onCur_off (r := .error .einval) (stat_off hm3 i)]
      exact ⟨_, _, rfl, hi3, whole (fun h => by rw [hcr] at h; cases h) (fun _ => Or.inl ⟨_, h, rfl, q3⟩), (fun fd h => by cases h)⟩
  | true =>
    have hw : ∀ {r : Except Err Int} {s' : PSt}, ((∃ e, Names pc s t path .eisdir (.error e) ∧ Fails pc s r s' e) ∨
      ∃ p nm, Names pc s t path .eisdir (.ok (vol, p, nm)) ∧
       ((∃ i, OnVol pc vol s s' (fun F F' => Create (pc.conf vol) p nm false F (.ok i) F') ∧ Opened pc s vol i mode false r s') ∨
        (∃ e, r = .error e ∧ (e = .eexist → has mode oExcl = true) ∧
          OnVol pc vol s s' (fun F F' => Create (pc.conf vol) p nm false F (.error e) F') ∧ s'.handle = s.handle) ∨
        (∃ i, has mode oExcl = false ∧ Has (pc.conf vol) (s.files pc vol) p nm i ∧ OpenExisting pc vol i mode type s r s'))) → FildesOpenDoes pc t path mode type s r s' :=
      fun h => whole (fun _ => h) (fun h => absurd hcr h)
    rw [if_pos rfl, run_bind]
    rcases name_step hc hi ha hcur .eisdir with ⟨e, s2, e2, a, h⟩ | ⟨p, name, s2, e2, a, h⟩
    · rw [e2]; exact ⟨_, _, rfl, hi.quiet (q1.trans a.quiet), hw (Or.inl ⟨e, h, rfl, q1.trans a.quiet⟩), (fun fd h => by cases h)⟩
    rw [e2]; dsimp only
    have q2 := q1.trans a.quiet
    have hi2 := hi.quiet q2
    have hcur2 : s2.cur = vol := a.cur.trans hcur
    rw [run_bind, run_attempt]
    rcases h with ⟨hm, hn, h⟩ | ⟨hm, h⟩
    swap
    · have hm2 : s2.v.mounted = false := (a.mounted hi1.cur).trans hm
      rw [onCur_off (r := .error .einval) (show coreCreate _ p name false _ = _ from modifyingOp_off hm2)]
      dsimp only
      rw [if_neg (by simp)]
      exact ⟨_, _, rfl, hi2, hw (Or.inl ⟨.einval, h, rfl, q2⟩), (fun fd h => by cases h)⟩
    have hm2 : s2.v.mounted = true := (a.mounted hi1.cur).trans hm
    obtain ⟨_, _, hms⟩ := fileFns hc hi q2 hcur2 hm2
    have hnro : (s.vols vol).readOnly = false := by
      cases hr : (s.vols vol).readOnly with
      | false => rfl
      | true => exact absurd ⟨hr, has_one hc hi hin hcr (by decide)⟩ h1
    obtain ⟨r, s3, e3, hi3, o, ho, hcur3⟩ := effect_step hc hi (m := fun c => coreCreate c p name false) (R := Create (pc.conf vol) p (nameOf (pc.conf vol) name) false) q2 hcur2 hm2
      (by subst hcur2; exact create_typed (hc.sys _ hi2.cur) (hc.posix _ hi2.cur) (hi2.reach _ hi2.cur) hm2 p hn false)
      (fun r F' R i _ => create_keeps R i)
    have hrel : Create (pc.conf vol) p (nameOf (pc.conf vol) name) false (s.files pc vol) r (s3.files pc vol) := by
      have := o.rel; unfold Rw at this; rw [if_neg (by rw [hnro]; simp)] at this; exact this
    rw [e3]
    rcases r with x | i
    · dsimp only
      by_cases hx : x = .eexist ∧ has mode oExcl = false
      · rw [if_pos hx, run_bind]
        obtain ⟨rfl, hex⟩ := hx
        have M : Mid pc vol s s3 := ⟨{ o with rel := hrel.1 }, ho, hcur3, hi3⟩
        obtain ⟨r, s4, e4, a4, L⟩ := onLookup hc hi3 M.mounted p hn
        have M4 := M.asked a4
        rw [M.files.1, M.files.2] at L
        have hh : ∃ j, Has (pc.conf vol) (s.files pc vol) p (nameOf (pc.conf vol) name) j := by
          rcases hrel.2 with h | ⟨_, ⟨h, _⟩ | ⟨_, h | ⟨_, ⟨_, h⟩ | ⟨h, _⟩⟩⟩⟩
          · rcases h with ⟨h, _⟩ | ⟨h, _⟩ <;> cases h
          · cases h
          · unfold BadName at h; rcases h with ⟨_, h⟩ | ⟨_, h⟩ | h <;> simp_all
          · exact h
          · cases h
        have hnk : NameOk (pc.conf vol) (nameOf (pc.conf vol) name) := by
          rcases hrel.2 with h | ⟨_, ⟨h, _⟩ | ⟨_, h | ⟨h, _⟩⟩⟩
          · rcases h with ⟨h, _⟩ | ⟨h, _⟩ <;> cases h
          · cases h
          · unfold BadName at h; rcases h with ⟨_, h⟩ | ⟨_, h⟩ | h <;> simp_all
          · exact h
        obtain ⟨j, hj⟩ := hh
        rw [e4]
        rcases r with y | i
        · exfalso
          have hd := (has_live (hc.sys _ hv) (hc.posix _ hv) (hi.reach _ hv) hms hj).1
          rcases L with h | ⟨_, h | ⟨_, _, _, h⟩⟩
          · obtain ⟨g, hd⟩ := hd; exact Props.Names.not_notDir hd h
          · obtain ⟨hl, hl', _⟩ := hnk
            rcases h with ⟨h, _⟩ | ⟨h, _⟩ <;> omega
          · exact h j hj
        dsimp only
        simp only [run_pure]
        have hlive := has_live (hc.sys _ hv) (hc.posix _ hv) (hi.reach _ hv) hms L
        obtain ⟨r, s5, e5, i5, oe, hfd⟩ := openExisting_spec hc hi hin (mode := mode) hty M4 hk h0 hfirst hlive.2.2.1 hro
        exact ⟨r, s5, e5, i5, hw (Or.inr ⟨p, _, h, Or.inr (Or.inr ⟨i, hex, L, oe⟩)⟩), fun fd h => ⟨idx, (hfd fd h).1, by rw [(hfd fd h).2.1]; exact (hfd fd h).2.2, by rw [(hfd fd h).2.1]; exact hv⟩⟩
      · rw [if_neg hx]
        refine ⟨_, _, rfl, hi3, hw (Or.inr ⟨p, _, h, Or.inr (Or.inl ⟨x, rfl, ?_, { o with rel := hrel }, ho⟩)⟩), (fun fd h => by cases h)⟩
        intro e
        cases hex : has mode oExcl with
        | true => rfl
        | false => exact absurd ⟨e, hex⟩ hx
    · dsimp only
      simp only [run_pure]
      unfold openCheck
      rw [if_pos rfl, run_bind]
      simp only [run_pure]
      obtain ⟨_, _, _, _, _, hnew, _⟩ := hrel
      have hmd : ∀ q, (AFile.new (if (false : Bool) = true then modeDir else modeReg) q).mode = modeReg := fun _ => rfl
      obtain ⟨r, s4, e4, i4, o4, op, hfd⟩ := openFin_spec hc hi hin o ho hi3 hk h0 hfirst (mode := mode) (m := 0) hnew
        ⟨(fun h => by exact absurd h (by decide)), (fun h => by rw [hmd] at h; exact absurd h.symm modes_ne)⟩ (fun h => by rw [hmd] at h; exact absurd h.symm modes_ne)
      refine ⟨r, s4, e4, i4, hw (Or.inr ⟨p, _, h, Or.inl ⟨i, { o4 with rel := ?_ }, ?_⟩⟩), fun fd h => ⟨idx, (hfd fd h).1, by rw [(hfd fd h).2.1]; exact (hfd fd h).2.2, by rw [(hfd fd h).2.1]; exact hv⟩⟩
      · have := o4.rel; unfold Rw at this; rw [if_neg (by rw [hnro]; simp)] at this; exact this
      · rw [hmd, decide_eq_false (fun h => modes_ne h.symm)] at op; exact op

end

/-! ### The mode of `red_open` -/

theorem has_pow (m i : Nat) : has m (2 ^ i) = m.testBit i := by
  unfold has
  cases h : m.testBit i with
  | true =>
    rw [decide_eq_true]
    intro h0
    have := congrArg (fun x => x.testBit i) h0
    simp [Nat.testBit_and, h] at this
  | false =>
    rw [decide_eq_false]
    rw [not_not]
    apply Nat.eq_of_testBit_eq
    intro j
    rw [Nat.testBit_and, Nat.testBit_two_pow]
    by_cases e : i = j
    · subst e; simp [h]
    · simp [e]

theorem has_or (m a b : Nat) : has m (a ||| b) = (has m a || has m b) := by
  unfold has
  rw [Nat.and_or_distrib_left]
  by_cases h1 : m &&& a = 0 <;> by_cases h2 : m &&& b = 0 <;> simp [h1, h2]

theorem has_bits (m : Nat) : has m oRdonly = m.testBit 0 ∧ has m oWronly = m.testBit 1 ∧ has m oRdwr = m.testBit 2 ∧ has m oAppend = m.testBit 3 ∧
    has m oCreat = m.testBit 4 ∧ has m oExcl = m.testBit 5 ∧ has m oTrunc = m.testBit 6 :=
  ⟨has_pow m 0, has_pow m 1, has_pow m 2, has_pow m 3, has_pow m 4, has_pow m 5, has_pow m 6⟩

theorem bits_iff (m : Nat) : m = m &&& (oRdonly ||| oWronly ||| oRdwr ||| oAppend ||| oCreat ||| oExcl ||| oTrunc) ↔ ∀ i, 7 ≤ i → m.testBit i = false := by
  rw [show oRdonly ||| oWronly ||| oRdwr ||| oAppend ||| oCreat ||| oExcl ||| oTrunc = 2 ^ 7 - 1 from by decide, Nat.and_two_pow_sub_one_eq_mod]
  constructor
  · intro h i hi
    rw [h, Nat.testBit_mod_two_pow, decide_eq_false (by omega)]; rfl
  · intro h
    apply Nat.eq_of_testBit_eq
    intro i
    rw [Nat.testBit_mod_two_pow]
    by_cases hi : i < 7
    · simp [hi]
    · rw [h i (by omega)]; simp

theorem badMode_iff (m : Nat) : badMode m = false ↔ ModeOk m := by
  obtain ⟨b0, b1, b2, b3, b4, b5, b6⟩ := has_bits m
  unfold badMode
  rw [Bool.or_eq_false_iff, Bool.or_eq_false_iff, Bool.or_eq_false_iff, Bool.or_eq_false_iff, Bool.or_eq_false_iff, Bool.or_eq_false_iff]
  rw [decide_eq_false_iff_not, not_not, bits_iff]
  simp only [has_or, b0, b1, b2, b4, b5, b6]
  have key : ∀ a b c d e f : Bool, ((!(a || b || c)) = false ∧ (a && (b || c)) = false ∧ (b && (a || c)) = false ∧ (c && (a || b)) = false ∧ ((f || d || e) && a) = false ∧ (e && !d) = false) ↔
      (((a = true ∧ b = false ∧ c = false) ∨ (a = false ∧ b = true ∧ c = false) ∨ (a = false ∧ b = false ∧ c = true)) ∧ (a = true → d = false ∧ e = false ∧ f = false) ∧ (e = true → d = true)) := by
    decide
  have := key (m.testBit 0) (m.testBit 1) (m.testBit 2) (m.testBit 4) (m.testBit 5) (m.testBit 6)
  constructor
  · rintro ⟨⟨⟨⟨⟨⟨h1, h2⟩, h3⟩, h4⟩, h5⟩, h6⟩, h7⟩
    obtain ⟨k1, k2, k3⟩ := this.1 ⟨h2, h3, h4, h5, h6, h7⟩
    exact ⟨h1, k1, k2, k3⟩
  · intro h
    obtain ⟨h2, h3, h4, h5, h6, h7⟩ := this.2 ⟨h.one, h.ro, h.excl⟩
    exact ⟨⟨⟨⟨⟨⟨h.bits, h2⟩, h3⟩, h4⟩, h5⟩, h6⟩, h7⟩

section
variable (hc : pc.Ok) (hi : PInv pc s) (hin : s.inited = true)
include hc hi hin

/-- `red_open` -/
theorem pOpen_spec {t k : Nat} (ht : SlotOf pc t s k) {path : List Byte} (hs : CStr.Ok path) (mode : Nat) :
    ∃ r s', pOpen pc t path mode s = (r, s') ∧ PInv pc s' ∧ OpenDoes pc t path mode s r s' := by
  unfold pOpen
  cases hb : badMode mode with
  | true =>
    rw [if_pos rfl]
    refine ⟨_, _, rfl, hi, (fun h => ?_), fun _ => ⟨rfl, Quiet.refl _ _⟩⟩
    rw [(badMode_iff mode).2 h] at hb; cases hb
  | false =>
    rw [if_neg (by simp)]
    have hm := (badMode_iff mode).1 hb
    obtain ⟨b0, b1, b2, _⟩ := has_bits mode
    obtain ⟨r, s', e, i, d, _⟩ := fildesOpen_spec hc hi hin ht hs (mode := mode) (type := .either) (by simp)
      (by rw [b0, b1, b2]; intro h; rcases hm.one with ⟨_, h1, h2⟩ | ⟨h1, _⟩ | ⟨h1, _⟩
          · rw [h1, h2]; rfl
          · rw [h] at h1; cases h1
          · rw [h] at h1; cases h1)
    exact ⟨r, s', e, i, (fun _ => d), fun h => absurd hm h⟩

/-- `red_opendir` -/
theorem pOpendir_spec {t k : Nat} (ht : SlotOf pc t s k) {path : List Byte} (hs : CStr.Ok path) :
    ∃ r s', pOpendir pc t path s = (r, s') ∧ PInv pc s' ∧ OpendirDoes pc t path s r s' := by
  unfold pOpendir
  rw [run_bind]
  obtain ⟨r, s', e, i, d, hfd⟩ := fildesOpen_spec hc hi hin ht hs (mode := oRdonly) (type := .dir) (by simp) (by decide)
  rw [e]
  rcases r with x | fd
  · exact ⟨_, _, rfl, i, _, d, Or.inl ⟨x, rfl, rfl⟩⟩
  · dsimp only
    obtain ⟨idx, h1, h2, hv⟩ := hfd fd rfl
    have := hc.n; have := hc.handles; have := h1.1
    refine ⟨_, _, rfl, i, _, d, Or.inr ⟨idx, h2 ▸ h1, by rw [h2], ?_⟩⟩
    rw [unpack_eq, h2]
    unfold PSt.fd
    rw [Int.toNat_natCast]
    show Except.ok _ = Except.ok _
    rw [(fd_parts (by omega) (by omega) (i.gen _ hv).1).1]

end

end RedFs.Posix
