import Verif.Spec.Posix
import Verif.Lemmas.Path
set_option linter.unusedSimpArgs false
set_option linter.unusedVariables false
set_option linter.unusedSectionVars false
/-!
Volumes and prefixes.
-/
namespace RedFs.Posix
open M Str Path Spec

variable {pc : PConf} {s s' s'' : PSt}

theorem matches_iff (hs : CStr.Ok path) (hp : CStr.Ok (pc.pre i)) (h0 : pc.pre i ≠ []) : prefixMatches pc path i = true ↔ Matches pc.sep (pc.pre i) path := by
  unfold prefixMatches Matches
  rw [strLen_ok _ hp, Bool.and_eq_true, decide_eq_true_eq, strNCmp_zero _ _ hs hp, Bool.or_eq_true, decide_eq_true_eq, decide_eq_true_eq, List.take_length]
  generalize pc.pre i = p at *
  constructor
  · rintro ⟨h1, h2⟩
    right
    have e : path = p ++ path.drop p.length := by conv => lhs; rw [← List.take_append_drop p.length path, h1]
    rcases hd : path.drop p.length with _ | ⟨y, r⟩
    · left; rw [e, hd, List.append_nil]
    · right
      refine ⟨r, ?_⟩
      rw [hd] at e
      have hy : cget path p.length = y := by rw [e]; simp [cget]
      rw [hy] at h2
      rcases h2 with h2 | h2
      · exact absurd h2 (hs y (by rw [e]; simp))
      · rw [← h2]; exact e
  · rintro (h | rfl | ⟨r, rfl⟩)
    · exact absurd h h0
    · simp [cget]
    · simp [cget]

/-- What the loop of `RedPathVolumePrefixLookup` knows after the volumes `l`. -/
structure PrefixInv (pc : PConf) (path : List Byte) (l : List Nat) (x : Option Nat × Nat × Option Nat) : Prop where
  len : ∀ i, x.1 = some i → x.2.1 = (pc.pre i).length ∧ i ∈ l ∧ pc.pre i ≠ [] ∧ Matches pc.sep (pc.pre i) path
  len0 : x.1 = none → x.2.1 = 0
  best : ∀ j ∈ l, pc.pre j ≠ [] → Matches pc.sep (pc.pre j) path → (pc.pre j).length ≤ x.2.1
  dflt : ∀ i, x.2.2 = some i → i ∈ l ∧ pc.pre i = []
  dflt0 : x.2.2 = none → ∀ j ∈ l, pc.pre j ≠ []

theorem prefix_step {l : List Nat} {x : Option Nat × Nat × Option Nat} {i : Nat} (hs : CStr.Ok path) (hp : CStr.Ok (pc.pre i)) (h : PrefixInv pc path l x) :
    PrefixInv pc path (l ++ [i]) (prefixStep pc path x i) := by
  unfold prefixStep
  rw [strLen_ok _ hp]
  dsimp only
  by_cases h0 : pc.pre i = []
  · rw [if_pos (by rw [h0]; rfl)]
    refine ⟨fun j hj => ?_, h.len0, fun j hj hn hm => ?_, fun j hj => ?_, fun hj => by cases hj⟩
    · obtain ⟨a, b, c, d⟩ := h.len j hj; exact ⟨a, by simp [b], c, d⟩
    · rcases List.mem_append.1 hj with hj | hj
      · exact h.best j hj hn hm
      · simp at hj; subst hj; exact absurd h0 hn
    · injection hj with hj; subst hj; exact ⟨by simp, h0⟩
  · rw [if_neg (by intro e; exact h0 (List.length_eq_zero_iff.1 e))]
    have keep : PrefixInv pc path l x → (Matches pc.sep (pc.pre i) path → (pc.pre i).length ≤ x.2.1) → PrefixInv pc path (l ++ [i]) x := by
      intro h hle
      refine ⟨fun j hj => ?_, h.len0, fun j hj hn hm => ?_, fun j hj => ?_, fun hj j hjl => ?_⟩
      · obtain ⟨a, b, c, d⟩ := h.len j hj; exact ⟨a, by simp [b], c, d⟩
      · rcases List.mem_append.1 hj with hj | hj
        · exact h.best j hj hn hm
        · simp at hj; subst hj; exact hle hm
      · obtain ⟨a, b⟩ := h.dflt j hj; exact ⟨by simp [a], b⟩
      · rcases List.mem_append.1 hjl with hjl | hjl
        · exact h.dflt0 hj j hjl
        · simp at hjl; subst hjl; exact h0
    by_cases hm : prefixMatches pc path i = true
    · rw [if_pos hm]
      have hm' := (matches_iff hs hp h0).1 hm
      split
      · rename_i hlt
        refine ⟨fun j hj => ?_, fun e => (by cases e), fun j hj hn hmj => ?_, fun j hj => ?_, fun hj j hjl => ?_⟩
        · injection hj with hj; subst hj; exact ⟨rfl, by simp, h0, hm'⟩
        · rcases List.mem_append.1 hj with hj | hj
          · exact Nat.le_of_lt (Nat.lt_of_le_of_lt (h.best j hj hn hmj) hlt)
          · simp at hj; subst hj; exact Nat.le_refl _
        · obtain ⟨a, b⟩ := h.dflt j hj; exact ⟨by simp [a], b⟩
        · rcases List.mem_append.1 hjl with hjl | hjl
          · exact h.dflt0 hj j hjl
          · simp at hjl; subst hjl; exact h0
      · rename_i hlt
        exact keep h (fun _ => Nat.not_lt.1 hlt)
    · rw [if_neg hm]
      exact keep h (fun e => absurd ((matches_iff hs hp h0).2 e) hm)

theorem prefix_inv (hc : pc.Ok) (hs : CStr.Ok path) : ∀ n, n ≤ pc.n → PrefixInv pc path (List.range n) ((List.range n).foldl (prefixStep pc path) (none, 0, none)) := by
  intro n
  induction n with
  | zero => intro _; exact ⟨(fun i h => by cases h), (fun _ => rfl), (fun j hj => by simp at hj), (fun i h => by cases h), (fun _ j hj => by simp at hj)⟩
  | succ n ih =>
    intro hn
    rw [List.range_succ, List.foldl_append]
    exact prefix_step hs (hc.pre n (by omega)) (ih (by omega))

/-- `RedPathVolumePrefixLookup` selects the volume with the longest matching prefix. -/
theorem prefixVol_spec (hc : pc.Ok) (hs : CStr.Ok path) :
    match prefixVol pc path with
    | some i => Selected pc path i
    | none => ∀ i, i < pc.n → ¬ Matches pc.sep (pc.pre i) path := by
  have h := prefix_inv hc hs pc.n (Nat.le_refl _)
  unfold prefixVol
  generalize (List.range pc.n).foldl (prefixStep pc path) (none, 0, none) = x at *
  obtain ⟨m, len, d⟩ := x
  cases m with
  | some i =>
    dsimp only
    obtain ⟨h1, h2, h3, h4⟩ := h.len i rfl
    refine ⟨List.mem_range.1 h2, h4, fun j hj hm => ?_⟩
    by_cases h0 : pc.pre j = []
    · rw [h0]; exact Nat.zero_le _
    · exact Nat.le_trans (h.best j (List.mem_range.2 hj) h0 hm) (Nat.le_of_eq h1)
  | none =>
    dsimp only
    have hz : len = 0 := h.len0 rfl
    subst hz
    have hno : ∀ j, j < pc.n → pc.pre j ≠ [] → ¬ Matches pc.sep (pc.pre j) path := by
      intro j hj h0 hm
      have := h.best j (List.mem_range.2 hj) h0 hm
      exact h0 (List.length_eq_zero_iff.1 (Nat.le_zero.1 this))
    cases d with
    | some i =>
      dsimp only
      obtain ⟨h1, h2⟩ := h.dflt i rfl
      refine ⟨List.mem_range.1 h1, Or.inl h2, fun j hj hm => ?_⟩
      by_cases h0 : pc.pre j = []
      · rw [h0]; exact Nat.zero_le _
      · exact absurd hm (hno j hj h0)
    | none =>
      intro i hi hm
      exact hno i hi (h.dflt0 rfl i (List.mem_range.2 hi)) hm

theorem selected_unique (hc : pc.Ok) {path : List Byte} {i j : Nat} (hi : Selected pc path i) (hj : Selected pc path j) : i = j := by
  obtain ⟨i1, i2, i3⟩ := hi
  obtain ⟨j1, j2, j3⟩ := hj
  refine hc.distinct i j i1 j1 ?_
  have hl : (pc.pre i).length = (pc.pre j).length := Nat.le_antisymm (j3 i i1 i2) (i3 j j1 j2)
  have pre : ∀ {p : List Byte}, Matches pc.sep p path → p = path.take p.length := by
    rintro p (rfl | rfl | ⟨r, rfl⟩) <;> simp
  rw [pre i2, pre j2, hl]

theorem prefixVol_some (hc : pc.Ok) (hs : CStr.Ok path) {i : Nat} : prefixVol pc path = some i ↔ Selected pc path i := by
  have h := prefixVol_spec hc hs
  constructor
  · intro e; rw [e] at h; exact h
  · intro hi
    cases e : prefixVol pc path with
    | some j => rw [e] at h; rw [selected_unique hc hi h]
    | none => rw [e] at h; exact absurd hi.2.1 (h i hi.1)

/-! ### The invariant -/

/-- An open handle is about an existing file on a mounted volume. -/
structure HandleOk (pc : PConf) (s : PSt) (h : Handle) : Prop where
  vol : h.vol < pc.n
  mounted : (s.vols h.vol).mounted = true
  file : ∃ f, files (pc.conf h.vol) (s.vols h.vol) h.ino = some f ∧ (h.dir = true ↔ f.mode = modeDir)
  off : h.dir = false → h.off ≤ (pc.conf h.vol).sizeMax
  ro : h.dir = true → h.writeable = false

/-- A current working directory exists. -/
structure SlotOk (pc : PConf) (s : PSt) (x : Slot) : Prop where
  vol : x.cwdVol < pc.n
  mounted : (s.vols x.cwdVol).mounted = true → ∃ f, IsDir (files (pc.conf x.cwdVol) (s.vols x.cwdVol)) x.cwdIno f
  off : (s.vols x.cwdVol).mounted = false → x.cwdIno = 2

structure PInv (pc : PConf) (s : PSt) : Prop where
  reach : ∀ i, i < pc.n → Reach (pc.conf i) (s.vols i)
  cur : s.cur < pc.n
  down : s.inited = false → ∀ i, i < pc.n → (s.vols i).mounted = false
  handle : s.inited = true → ∀ i, i < pc.handles → (s.handle i).ino ≠ 0 → HandleOk pc s (s.handle i)
  slot : s.inited = true → pc.cwd = true → ∀ i, i < pc.tasks → SlotOk pc s (s.slot i)
  task : s.inited = true → ∀ i j, i < pc.tasks → j < pc.tasks → (s.slot i).task = (s.slot j).task → (s.slot i).task ≠ 0 → i = j
  gen : ∀ i, i < pc.n → s.gen i ≤ 2047 ∧ ((s.vols i).mounted = true → 1 ≤ s.gen i)

theorem Quiet.refl (pc : PConf) (s : PSt) : Quiet pc s s := ⟨rfl, rfl, rfl, rfl, rfl, id, fun _ _ => Same.refl _ _⟩
theorem Quiet.trans (h : Quiet pc s s') (h' : Quiet pc s' s'') : Quiet pc s s'' :=
  ⟨h'.inited.trans h.inited, h'.handle.trans h.handle, h'.slot.trans h.slot, h'.gen.trans h.gen, h'.gerrno.trans h.gerrno,
    fun x => h'.cur (h.cur x), fun i hi => (h.vols i hi).trans (h'.vols i hi)⟩

theorem HandleOk.congr {h : Handle} (H : HandleOk pc s h) (hm : (s'.vols h.vol).mounted = (s.vols h.vol).mounted)
    (hf : ∀ f, files (pc.conf h.vol) (s.vols h.vol) h.ino = some f → ∃ f', files (pc.conf h.vol) (s'.vols h.vol) h.ino = some f' ∧ f'.mode = f.mode) :
    HandleOk pc s' h := by
  obtain ⟨f, h1, h2⟩ := H.file
  obtain ⟨f', h3, h4⟩ := hf f h1
  exact ⟨H.vol, hm.trans H.mounted, ⟨f', h3, by rw [h4]; exact h2⟩, H.off, H.ro⟩

theorem SlotOk.congr {x : Slot} (H : SlotOk pc s x) (hm : (s'.vols x.cwdVol).mounted = (s.vols x.cwdVol).mounted)
    (hf : (s.vols x.cwdVol).mounted = true → ∀ f, files (pc.conf x.cwdVol) (s.vols x.cwdVol) x.cwdIno = some f →
      ∃ f', files (pc.conf x.cwdVol) (s'.vols x.cwdVol) x.cwdIno = some f' ∧ f'.mode = f.mode) :
    SlotOk pc s' x := by
  refine ⟨H.vol, fun h => ?_, fun h => H.off (hm.symm.trans h)⟩
  obtain ⟨f, h1⟩ := H.mounted (hm.symm.trans h)
  obtain ⟨f', h3, h4⟩ := hf (hm.symm.trans h) f h1.1
  exact ⟨f', h3, h4.trans h1.2⟩

theorem PInv.quiet (h : PInv pc s) (q : Quiet pc s s') : PInv pc s' := by
  refine ⟨fun i hi => (q.vols i hi).reach (h.reach i hi), q.cur h.cur, fun hi i hn => ?_, fun hi i hn h0 => ?_, fun hi hc i hn => ?_, fun hi => ?_, fun i hi => ?_⟩
  · rw [(q.vols i hn).mounted]; exact h.down (q.inited ▸ hi) i hn
  · rw [q.handle] at h0 ⊢
    have H := h.handle (q.inited ▸ hi) i hn h0
    exact H.congr (q.vols _ H.vol).mounted fun f hf => ⟨f, by rw [(q.vols _ H.vol).files H.mounted]; exact hf, rfl⟩
  · rw [q.slot]
    have H := h.slot (q.inited ▸ hi) hc i hn
    exact H.congr (q.vols _ H.vol).mounted fun hm f hf => ⟨f, by rw [(q.vols _ H.vol).files hm]; exact hf, rfl⟩
  · rw [q.slot]; exact h.task (q.inited ▸ hi)
  · rw [q.gen, (q.vols i hi).mounted]; exact h.gen i hi

/-! ### Where a path starts -/

theorem setCur_ok {i : Nat} (hi : i < pc.n) (s : PSt) : setCur pc i s = (.ok (), { s with cur := i }) := by
  unfold setCur; rw [if_neg (by omega)]; rfl

theorem quiet_cur {i : Nat} (hi : i < pc.n) (s : PSt) : Quiet pc s { s with cur := i } :=
  ⟨rfl, rfl, rfl, rfl, rfl, fun _ => hi, fun _ _ => Same.refl _ _⟩

theorem find_slot {t i : Nat} (h : SlotOf pc t s i) (h1 : pc.tasks ≠ 1) : ∃ j, taskIdx pc t s = some j ∧ SlotOf pc t s j := by
  obtain ⟨h2, h3 | h3⟩ := h
  · exact absurd h3 h1
  unfold taskIdx
  cases e : (List.range pc.tasks).find? fun i => (s.slot i).task == t with
  | none =>
    have := List.find?_eq_none.1 e i (List.mem_range.2 h2)
    simp [h3] at this
  | some j =>
    have h4 := List.find?_some e
    have h5 := List.mem_of_find?_eq_some e
    exact ⟨j, rfl, List.mem_range.1 h5, Or.inr (by simpa using h4)⟩

theorem cwdSlot_spec {t i : Nat} (h : SlotOf pc t s i) : ∃ j, cwdSlot pc t s = (.ok j, s) ∧ SlotOf pc t s j := by
  unfold cwdSlot
  by_cases h1 : pc.tasks = 1
  · rw [if_pos h1]; exact ⟨0, rfl, by omega, Or.inl h1⟩
  · rw [if_neg h1, run_bind, run_get]
    obtain ⟨j, e, hj⟩ := find_slot h h1
    dsimp only
    rw [e]
    exact ⟨j, rfl, hj⟩

theorem startingPoint_spec (hc : pc.Ok) (hi : PInv pc s) (hin : s.inited = true) {t k : Nat} (ht : SlotOf pc t s k) {path : List Byte} (hs : CStr.Ok path) :
    ∃ r s', startingPoint pc t path s = (r, s') ∧ Quiet pc s s' ∧ s'.vols = s.vols ∧ StartAt pc s t path r ∧ ∀ vol start l, r = .ok (vol, start, l) → s'.cur = vol := by
  unfold startingPoint prefixLookup
  rw [run_bind, run_attempt]
  have hp := prefixVol_spec hc hs
  have hrel : (decide (cget path 0 ≠ pc.sep) && decide (cget path 0 ≠ 0#8)) = true ↔ path ≠ [] ∧ path.head? ≠ some pc.sep := by
    cases path with
    | nil => simp [cget]
    | cons x r =>
      have := hs x (by simp)
      simp [cget, this]
  cases hv : prefixVol pc path with
  | none =>
    rw [hv] at hp
    dsimp only [run_fail]
    rw [run_bind, run_get]
    dsimp only
    by_cases hb : (pc.cwd && decide (Err.enoent = Err.enoent) && decide (cget path 0 ≠ pc.sep) && decide (cget path 0 ≠ 0#8)) = true
    · rw [if_pos hb, run_bind]
      rw [Bool.and_assoc, Bool.and_assoc, Bool.and_eq_true, Bool.and_eq_true, hrel] at hb
      obtain ⟨j, e, hj⟩ := cwdSlot_spec ht
      rw [e]; dsimp only
      have hvol := (hi.slot hin hb.1 j hj.1).vol
      rw [run_bind, setCur_ok hvol]
      refine ⟨_, _, rfl, quiet_cur hvol s, rfl, .cwd hb.1 (fun i hi _ => hp i hi) hb.2.2.1 hb.2.2.2 hj, ?_⟩
      intro vol start l h; injection h with h; injection h with h1 h2
    · rw [if_neg hb]
      refine ⟨_, _, rfl, Quiet.refl _ _, rfl, .none_ hp fun hcw => ?_, (fun _ _ _ h => by cases h)⟩
      rw [Bool.and_assoc, Bool.and_assoc, Bool.and_eq_true, Bool.and_eq_true, hrel] at hb
      by_cases h1 : path = []
      · exact Or.inl h1
      · right
        by_cases h2 : path.head? = some pc.sep
        · exact h2
        · exact absurd ⟨hcw, by simp, h1, h2⟩ hb
  | some i =>
    rw [hv] at hp
    have hin' := hp.1
    have hcur : (do setCur pc i; pure i : PM Nat) s = (.ok i, { s with cur := i }) := by rw [run_bind, setCur_ok hin']; rfl
    dsimp only
    rw [hcur]
    dsimp only
    rw [run_bind, run_get]
    dsimp only
    have hemp : (decide (cget (pc.pre i) 0 = 0#8)) = true ↔ pc.pre i = [] := by
      have := hc.pre i hin'
      cases hpi : pc.pre i with
      | nil => simp [cget]
      | cons x r => rw [hpi] at this; have := this x (by simp); simp [cget, this]
    have hno : pc.pre i = [] ↔ ∀ j, j < pc.n → pc.pre j ≠ [] → ¬ Matches pc.sep (pc.pre j) path := by
      constructor
      · intro h0 j hj hn hm
        have := hp.2.2 j hj hm
        rw [h0] at this
        exact hn (List.length_eq_zero_iff.1 (Nat.le_zero.1 this))
      · intro h
        by_cases h0 : pc.pre i = []
        · exact h0
        · exact absurd hp.2.1 (h i hin' h0)
    by_cases hb : (pc.cwd && decide (cget (pc.pre i) 0 = 0#8) && decide (cget path 0 ≠ pc.sep) && decide (cget path 0 ≠ 0#8)) = true
    · rw [if_pos hb, run_bind]
      rw [Bool.and_assoc, Bool.and_assoc, Bool.and_eq_true, Bool.and_eq_true, hrel, hemp, hno] at hb
      have ht' : SlotOf pc t { s with cur := i } k := ht
      obtain ⟨j, e, hj⟩ := cwdSlot_spec ht'
      rw [e]; dsimp only
      have hvol := (hi.slot hin hb.1 j hj.1).vol
      rw [run_bind, setCur_ok hvol]
      refine ⟨_, _, rfl, (quiet_cur hin' s).trans (quiet_cur hvol _), rfl, .cwd hb.1 hb.2.1 hb.2.2.1 hb.2.2.2 hj, ?_⟩
      intro vol start l h; injection h with h; injection h with h1 h2
    · rw [if_neg hb, strLen_ok _ (hc.pre i hin')]
      refine ⟨_, _, rfl, quiet_cur hin' s, rfl, .abs (fun hcw hn => ?_) hp, ?_⟩
      · rw [Bool.and_assoc, Bool.and_assoc, Bool.and_eq_true, Bool.and_eq_true, hrel, hemp, hno] at hb
        by_cases h1 : path = []
        · exact Or.inl h1
        · right
          by_cases h2 : path.head? = some pc.sep
          · exact h2
          · exact absurd ⟨hcw, hn, h1, h2⟩ hb
      · intro vol start l h; injection h with h; injection h with h1 h2

structure StartOk (pc : PConf) (s : PSt) (vol start : Nat) (l : List Byte) : Prop where
  lt : vol < pc.n
  up : (s.vols vol).mounted = true → ∃ f, IsDir (files (pc.conf vol) (s.vols vol)) start f
  down : (s.vols vol).mounted = false → start = 2
  root : pc.cwd = false → start = 2
  str : CStr.Ok l
  some : start = 2 ∨ comps pc.sep l ≠ []

theorem comps_ne {sep : Byte} {l : List Byte} (h : l ≠ []) (h' : l.head? ≠ some sep) : comps sep l ≠ [] := by
  refine comps_eq_nil h ?_
  cases l with
  | nil => rfl
  | cons x l => simp only [List.head?_cons, ne_eq, Option.some.injEq] at h'; simp only [skipSep]; rw [if_neg h']

theorem StartAt.ok (hc : pc.Ok) (hi : PInv pc s) (hin : s.inited = true) {t : Nat} {path : List Byte} (hs : CStr.Ok path) {vol start : Nat} {l : List Byte}
    (h : StartAt pc s t path (.ok (vol, start, l))) : StartOk pc s vol start l := by
  generalize hr : (Except.ok (vol, start, l) : Except Err (Nat × Nat × List Byte)) = r at h
  cases h with
  | @cwd j h1 h2 h3 h4 h5 =>
    injection hr with hr; injection hr with h6 hr; injection hr with h7 h8
    subst h6 h7 h8
    have H := hi.slot hin h1 j h5.1
    exact ⟨H.vol, H.mounted, H.off, (fun h => by rw [h1] at h; cases h), hs, Or.inr (comps_ne h3 h4)⟩
  | @abs i h1 h2 =>
    injection hr with hr; injection hr with h6 hr; injection hr with h7 h8
    subst h6 h7 h8
    refine ⟨h2.1, fun hm => ?_, fun _ => rfl, fun _ => rfl, drop_ok hs _, Or.inl rfl⟩
    obtain ⟨f, hf, _⟩ := root_dir (hc.sys _ h2.1) (hc.posix _ h2.1) (hi.reach _ h2.1) hm
    exact ⟨f, hf⟩
  | none_ => cases hr

end RedFs.Posix
