import Verif.Lemmas.PosixVol
set_option linter.unusedSimpArgs false
set_option linter.unusedVariables false
set_option linter.unusedSectionVars false
/-!
`red_getcwd`.
-/
namespace RedFs.Posix
open M Str Path Spec

section
variable {c : Conf} (hc : c.SysOk) (hp : c.posix = true)
include hc hp

theorem has_nameOk {v : Vol} (h : Reach c v) (hm : v.mounted = true) {p i : Nat} {nm : List Byte} (hh : Has c (files c v) p nm i) : NameOk c nm := by
  obtain ⟨k, hk⟩ := hh
  obtain ⟨f, hf⟩ := Props.Names.isDir_of_ent hk
  obtain ⟨_, ok⟩ := (Props.Names.Reach.ns hc hp h hm).dirs p f hf
  rw [entOf_dir hf] at hk
  exact ok.name k i nm hk

/-- The one entry of a directory. -/
theorem dir_entry {v : Vol} (h : Reach c v) (hm : v.mounted = true) {i : Nat} {f : AFile} (hf : IsDir (files c v) i f) (h2 : i ≠ 2) :
    ∃ k nm, k ≤ c.direntsMax ∧ entOf c (files c v) f.parent k = some (i, nm) ∧ ∀ k' nm', entOf c (files c v) f.parent k' = some (i, nm') → k' = k := by
  have ns := Props.Names.Reach.ns hc hp h hm
  have hnd := Props.Names.dir_node (c := c) hf
  obtain ⟨k, hk⟩ := GraphOk.dir_ref ns.graph hnd rfl h2
  obtain ⟨nm, hn⟩ := slot_some.1 hk
  refine ⟨k, nm, ?_, hn, fun k' nm' hk' => ?_⟩
  · obtain ⟨g, hg⟩ := Props.Names.isDir_of_ent hn
    obtain ⟨_, ok⟩ := ns.dirs _ g hg
    rw [entOf_dir hg] at hn
    have h1 : k < (dirOf c g).n := by
      apply Nat.lt_of_not_le; intro hle
      have := ok.out k hle
      rw [show (dirOf c g).slot k = entAt c g k from rfl, hn] at this; cases this
    have := ok.max
    omega
  · obtain ⟨h1, _⟩ := ns.graph.nlink i _ hnd h2
    rw [ns.graph.one i _ hnd rfl] at h1
    have := h1.one (x := (f.parent, k')) (y := (f.parent, k)) (slot_some.2 ⟨nm', hk'⟩) hk
    injection this

theorem cwdName_spec {p i k0 : Nat} {nm : List Byte} (fuel : Nat) : ∀ {v : Vol} (h : Reach c v) (hm : v.mounted = true) {pos : Nat} (hle : pos ≤ k0) (hf : k0 < pos + fuel)
    (hk : entOf c (files c v) p k0 = some (i, nm)) (hu : ∀ k nm', entOf c (files c v) p k = some (i, nm') → k = k0),
    ∃ v', cwdName c p i fuel pos v = (.ok nm, v') ∧ Same c v v' := by
  induction fuel with
  | zero => intro v h hm pos hle hf; omega
  | succ fuel ih =>
    intro v h hm pos hle hf hk hu
    obtain ⟨S, R⟩ := dirRead_typed hc hp h hm p pos
    unfold cwdName
    rcases hx : coreDirRead c p pos v with ⟨r, v1⟩
    rw [hx] at S R
    dsimp only at S R
    rw [run_bind, hx]
    rcases r with e | ⟨pos', e⟩
    · exfalso
      obtain ⟨g, hg⟩ := Props.Names.isDir_of_ent hk
      rcases R with ⟨_, R⟩ | ⟨_, g', R⟩
      · rw [hg.1] at R; cases R
      · have e := R.1; rw [hg.1] at e; injection e with e; subst e; exact modes_ne (hg.2.symm.trans R.2)
    dsimp only
    rcases e with _ | ⟨name, j⟩
    · exfalso
      have := R.2.1 k0 hle
      rw [hk] at this; cases this
    dsimp only
    obtain ⟨k, h1, h2, h3, h4⟩ := R
    by_cases hji : j = i
    · rw [if_pos hji]
      subst hji
      have e := hu k name h2
      subst e
      rw [hk] at h2; injection h2 with h2; injection h2 with _ h2; subst h2
      exact ⟨_, rfl, S⟩
    · rw [if_neg hji]
      have hlt : k < k0 := by
        rcases Nat.lt_trichotomy k k0 with h' | h' | h'
        · exact h'
        · subst h'; rw [hk] at h2; injection h2 with h2; injection h2 with h2 _; exact absurd h2.symm hji
        · have := h3 k0 hle h'
          rw [hk] at this; cases this
      have hF := S.files hm
      obtain ⟨v', e, S'⟩ := ih (S.reach h) (S.mounted.trans hm) (pos := pos') (by omega) (by omega) (by rw [hF]; exact hk) (by rw [hF]; exact hu)
      exact ⟨v', e, S.trans S'⟩

/-- Names with a separator after each of them. -/
def flat (sep : Byte) (cs : List (List Byte)) : List Byte := (cs.map fun x => x ++ [sep]).flatten

omit hc hp in
theorem joinPath_snoc (sep : Byte) (cs : List (List Byte)) (nm : List Byte) : joinPath sep (cs ++ [nm]) = flat sep cs ++ nm := by
  induction cs with
  | nil => simp [joinPath, flat]
  | cons x l ih =>
    have : joinPath sep (x :: (l ++ [nm])) = x ++ sep :: joinPath sep (l ++ [nm]) := by
      cases l <;> rfl
    rw [List.cons_append, this, ih]
    simp [flat]

omit hc hp in
theorem flat_snoc (sep : Byte) (cs : List (List Byte)) (nm : List Byte) : flat sep (cs ++ [nm]) = flat sep cs ++ (nm ++ [sep]) := by simp [flat]

omit hc hp in
theorem take_name {nm : List Byte} (h : NameOk c nm) : nm.take (nameLen c.sep nm) = nm := by
  rw [nameLen_nameOf (c := c) (fun x hx => h.nul x hx)]
  have : nameOf c nm = nm := by
    unfold nameOf
    have hs := h.sep
    clear h
    induction nm with
    | nil => rfl
    | cons a l ih =>
      rw [List.takeWhile_cons, if_pos (by simpa using hs a (by simp)), ih fun x hx => hs x (by simp [hx])]
  rw [this, List.take_length]

/-- One step of the loop. -/
theorem cwdLoop_step {size first fuel : Nat} {v : Vol} (h : Reach c v) (hm : v.mounted = true) {i : Nat} {f : AFile} (hf : IsDir (files c v) i f) (h2 : i ≠ 2) (buf : List Byte) :
    ∃ nm v', Same c v v' ∧ Has c (files c v) f.parent nm i ∧
      cwdLoop c size first (fuel + 1) i buf v =
        (let new := if i ≠ first then nm ++ [c.sep] else nm
         if size < buf.length + 1 + new.length then (.error .erange, v') else cwdLoop c size first fuel f.parent (new ++ buf) v') := by
  obtain ⟨S, R⟩ := dirParent_typed hc hp h hm i
  rcases hx : coreDirParent c i v with ⟨r, v1⟩
  rw [hx] at S R
  dsimp only at S R
  rcases r with e | p
  · exfalso
    rcases R with ⟨_, R⟩ | ⟨_, g', R⟩
    · rw [hf.1] at R; cases R
    · have e := R.1; rw [hf.1] at e; injection e with e; subst e; exact modes_ne (hf.2.symm.trans R.2)
  obtain ⟨g, hg, hpar⟩ := R
  have : g = f := by have := hg.1.symm.trans hf.1; injection this
  subst this
  subst hpar
  obtain ⟨k, nm, hk1, hk2, hk3⟩ := dir_entry hc hp h hm hf h2
  have hF := S.files hm
  obtain ⟨v', e, S'⟩ := cwdName_spec hc hp (c.direntsMax + 1) (S.reach h) (S.mounted.trans hm) (pos := 0) (Nat.zero_le k) (by omega) (by rw [hF]; exact hk2) (by rw [hF]; exact hk3)
  refine ⟨nm, v', S.trans S', ⟨k, hk2⟩, ?_⟩
  conv => lhs; unfold cwdLoop
  rw [if_neg h2, run_bind, hx]
  dsimp only
  rw [run_bind, e]
  dsimp only
  rw [take_name (has_nameOk hc hp h hm ⟨k, hk2⟩)]
  split <;> split <;> rfl

theorem cwdLoop_above {size first m : Nat} (fuel : Nat) : ∀ {v : Vol} (h : Reach c v) (hm : v.mounted = true) (hd : (graphOf c (files c v)).Depth first m) {i n : Nat} {f : AFile}
    (hf : IsDir (files c v) i f) (hn : (graphOf c (files c v)).Depth i n) (hlt : n < m) (hfu : n < fuel) (buf : List Byte),
    ∃ cs r v', Same c v v' ∧ PathOf c (files c v) i cs ∧ cwdLoop c size first fuel i buf v = (r, v') ∧
      (r = .ok (flat c.sep cs ++ buf) ∨ (r = .error .erange ∧ size < buf.length + 1 + (flat c.sep cs).length)) := by
  induction fuel with
  | zero => intro v h hm hd i n f hf hn hlt hfu; omega
  | succ fuel ih =>
    intro v h hm hd i n f hf hn hlt hfu buf
    by_cases h2 : i = 2
    · subst h2
      refine ⟨[], .ok buf, v, Same.refl _ _, .root, ?_, Or.inl (by simp [flat])⟩
      unfold cwdLoop; rw [if_pos rfl]; rfl
    have hne : i ≠ first := by
      intro e; subst e
      have := hn.uniq hd
      omega
    obtain ⟨nm, v1, S, hh, e⟩ := cwdLoop_step hc hp (size := size) (first := first) (fuel := fuel) h hm hf h2 buf
    simp only [if_pos hne] at e
    have hF := S.files hm
    cases hn with
    | root => exact absurd rfl h2
    | step a b d0 d =>
      rename_i n nd
      have : nd.parent = f.parent := by
        have hb := b
        rw [Props.Names.dir_node hf] at hb; injection hb with hb; rw [← hb]
      rw [this] at d
      obtain ⟨g, hg⟩ := parent_dir hc hp h hm hf h2
      by_cases hs : size < buf.length + 1 + (nm ++ [c.sep]).length
      · rw [if_pos hs] at e
        obtain ⟨cs, _, _, _, P, _⟩ := ih (S.reach h) (S.mounted.trans hm) (by rw [hF]; exact hd) (by rw [hF]; exact hg) (by rw [hF]; exact d) (by omega) (by omega) buf
        rw [hF] at P
        refine ⟨cs ++ [nm], _, _, S, .step h2 hf hh P, e, Or.inr ⟨rfl, ?_⟩⟩
        rw [flat_snoc, List.length_append]; omega
      · rw [if_neg hs] at e
        obtain ⟨cs, r, v', S', P, e', H⟩ := ih (S.reach h) (S.mounted.trans hm) (by rw [hF]; exact hd) (by rw [hF]; exact hg) (by rw [hF]; exact d) (by omega) (by omega) (nm ++ [c.sep] ++ buf)
        rw [hF] at P
        refine ⟨cs ++ [nm], r, v', S.trans S', .step h2 hf hh P, e.trans e', ?_⟩
        rw [flat_snoc]
        rcases H with H | ⟨H, H'⟩
        · left; rw [H]; simp
        · right; refine ⟨H, ?_⟩
          simp only [List.length_append] at H' ⊢
          omega

/-- The loop: the path from the root to the directory. -/
theorem cwdLoop_spec {size : Nat} {v : Vol} (h : Reach c v) (hm : v.mounted = true) {i : Nat} {f : AFile} (hf : IsDir (files c v) i f) :
    ∃ cs r v', Same c v v' ∧ PathOf c (files c v) i cs ∧ cwdLoop c size i (c.inodeCount + 1) i [] v = (r, v') ∧
      (r = .ok (joinPath c.sep cs) ∨ (r = .error .erange ∧ size < 1 + (joinPath c.sep cs).length)) := by
  have ns := Props.Names.Reach.ns hc hp h hm
  obtain ⟨n, hn⟩ := ns.graph.tree i _ (Props.Names.dir_node hf) rfl
  have hlt : n < c.inodeCount := by
    refine hn.lt hc.ok.inodes fun y hy => ?_
    have : files c v y ≠ none := by
      intro e; rw [node_none e] at hy; cases hy
    have := file_valid hc hp h hm this
    simp [Conf.inodeValid] at this
    omega
  by_cases h2 : i = 2
  · subst h2
    refine ⟨[], .ok [], v, Same.refl _ _, .root, ?_, Or.inl rfl⟩
    unfold cwdLoop; rw [if_pos rfl]; rfl
  obtain ⟨nm, v1, S, hh, e⟩ := cwdLoop_step hc hp (size := size) (first := i) (fuel := c.inodeCount) h hm hf h2 []
  simp only [ne_eq, not_true_eq_false, if_false, List.length_nil, Nat.zero_add, List.append_nil] at e
  have hF := S.files hm
  have hn' := hn
  cases hn with
  | root => exact absurd rfl h2
  | step a b d0 d =>
    rename_i n nd
    have : nd.parent = f.parent := by
      have hb := b
      rw [Props.Names.dir_node hf] at hb; injection hb with hb; rw [← hb]
    rw [this] at d
    obtain ⟨g, hg⟩ := parent_dir hc hp h hm hf h2
    by_cases hs : size < 1 + nm.length
    · rw [if_pos hs] at e
      obtain ⟨cs, _, _, _, P, _⟩ := cwdLoop_above hc hp (size := size) (first := i) (n + 1) h hm hn' hg d (Nat.lt_succ_self _) (by omega) []
      refine ⟨cs ++ [nm], _, _, S, .step h2 hf hh P, e, Or.inr ⟨rfl, ?_⟩⟩
      rw [joinPath_snoc, List.length_append]; omega
    · rw [if_neg hs] at e
      obtain ⟨cs, r, v', S', P, e', H⟩ := cwdLoop_above hc hp (size := size) (first := i) c.inodeCount (S.reach h) (S.mounted.trans hm) (by rw [hF]; exact hn') (by rw [hF]; exact hg)
        (by rw [hF]; exact d) (Nat.lt_succ_self _) (by omega) nm
      rw [hF] at P
      refine ⟨cs ++ [nm], r, v', S.trans S', .step h2 hf hh P, e.trans e', ?_⟩
      rw [joinPath_snoc]
      rcases H with H | ⟨H, H'⟩
      · exact Or.inl H
      · right; refine ⟨H, ?_⟩
        simp only [List.length_append] at H' ⊢
        omega

end

section
variable {pc : PConf} {s : PSt} (hc : pc.Ok) (hi : PInv pc s) (hin : s.inited = true)
include hc hi hin

/-- `red_getcwd` -/
theorem pGetcwd_spec (hcw : pc.cwd = true) {t k : Nat} (ht : SlotOf pc t s k) (size : Nat) :
    ∃ r s', pGetcwd pc t size s = (r, s') ∧ PInv pc s' ∧ GetcwdDoes pc t size s r s' := by
  unfold pGetcwd
  obtain ⟨j, e, hj⟩ := cwdSlot_spec ht
  rw [run_bind, e]; dsimp only
  rw [run_bind, run_get]; dsimp only
  have H := hi.slot hin hcw j hj.1
  rw [run_bind, setCur_ok H.vol]; dsimp only
  have q1 := quiet_cur H.vol s
  have hpre := strLen_ok _ (hc.pre _ H.vol)
  rw [hpre, List.take_length]
  by_cases hm : (s.vols (s.slot j).cwdVol).mounted = true
  · obtain ⟨f, hf⟩ := H.mounted hm
    obtain ⟨cs, r, v', S, P, e2, R⟩ := cwdLoop_spec (hc.sys _ H.vol) (hc.posix _ H.vol) (size := size) (hi.reach _ H.vol) hm hf
    have a := asked_put (pc := pc) (s := { s with cur := (s.slot j).cwdVol }) S
    have q := q1.trans a.quiet
    rw [run_bind, onCur_run (v := v') (r := r) (by exact e2)]
    rw [hc.sep _ H.vol] at R
    rcases R with R | ⟨R, hlt⟩
    · subst R
      dsimp only
      by_cases hs : size < (joinPath pc.sep cs).length + 1 + (pc.pre (s.slot j).cwdVol).length + 1
      · rw [if_pos hs]
        refine ⟨_, _, rfl, hi.quiet q, q, j, hj, ?_⟩
        rw [if_pos hm]
        refine ⟨cs, P, ?_⟩
        dsimp only
        rw [if_neg (by simp only [List.length_append, List.length_cons]; omega)]
      · rw [if_neg hs]
        refine ⟨_, _, rfl, hi.quiet q, q, j, hj, ?_⟩
        rw [if_pos hm]
        refine ⟨cs, P, ?_⟩
        dsimp only
        rw [if_pos (by simp only [List.length_append, List.length_cons]; omega)]
    · subst R
      dsimp only
      refine ⟨_, _, rfl, hi.quiet q, q, j, hj, ?_⟩
      rw [if_pos hm]
      refine ⟨cs, P, ?_⟩
      dsimp only
      rw [if_neg (by simp only [List.length_append, List.length_cons]; omega)]
  · have hm' : (s.vols (s.slot j).cwdVol).mounted = false := by simpa using hm
    have h2 := H.off hm'
    rw [run_bind, onCur_off (r := .ok []) (by rw [h2]; unfold cwdLoop; rw [if_pos rfl]; rfl)]
    dsimp only [List.length_nil]
    by_cases hs : size < 0 + 1 + (pc.pre (s.slot j).cwdVol).length + 1
    · rw [if_pos hs]
      refine ⟨_, _, rfl, hi.quiet q1, q1, j, hj, ?_⟩
      rw [if_neg hm, if_neg (by omega)]
    · rw [if_neg hs]
      refine ⟨_, _, rfl, hi.quiet q1, q1, j, hj, ?_⟩
      rw [if_neg hm, if_pos (by omega)]

end

end RedFs.Posix
