import Verif.Spec.Path
import Verif.Lemmas.Typed
set_option linter.unusedSimpArgs false
set_option linter.unusedVariables false
set_option linter.unusedSectionVars false
/-!
Paths: `PathWalk` follows the elements of a path.
-/
namespace RedFs
open M Vol Spec Props.System Props.Account Str Path

variable {c : Conf} {v v' v'' : Vol}

theorem pieces_ne (sep : Byte) (s : List Byte) : pieces sep s ≠ [] := by
  cases s with
  | nil => simp [pieces]
  | cons x s =>
    simp only [pieces]
    split
    · simp
    · split <;> simp

theorem comps_nil (sep : Byte) : comps sep [] = [] := by simp [comps, pieces]

theorem comps_sep (sep : Byte) (s : List Byte) : comps sep (sep :: s) = comps sep s := by simp [comps, pieces]

theorem comps_skip (sep : Byte) (s : List Byte) : comps sep (skipSep sep s) = comps sep s := by
  induction s with
  | nil => rfl
  | cons x s ih =>
    simp only [skipSep]
    split
    · rename_i h; rw [ih, h, comps_sep]
    · rfl

theorem pieces_append (sep : Byte) (a : List Byte) (ha : ∀ x ∈ a, x ≠ sep) (s : List Byte) :
    pieces sep (a ++ s) = (a ++ (pieces sep s).headD []) :: (pieces sep s).tail := by
  induction a with
  | nil =>
    have := pieces_ne sep s
    cases h : pieces sep s with
    | nil => exact absurd h this
    | cons => simp [h]
  | cons x a ih =>
    rw [List.cons_append, pieces, if_neg (ha x (by simp)), ih (fun y hy => ha y (by simp [hy]))]
    simp

theorem comps_name {s : List Byte} (hs : skipSep c.sep s = s) (h0 : s ≠ []) :
    comps c.sep s = nameOf c s :: comps c.sep (s.drop (nameOf c s).length) ∧ nameOf c s ≠ [] := by
  have hne : nameOf c s ≠ [] := by
    cases s with
    | nil => exact absurd rfl h0
    | cons x s =>
      simp only [skipSep] at hs
      have hx : x ≠ c.sep := by
        intro h
        rw [if_pos h] at hs
        have := congrArg List.length hs
        have h2 : ∀ s : List Byte, (skipSep c.sep s).length ≤ s.length := by
          intro s; induction s with
          | nil => simp [skipSep]
          | cons y s ih => simp only [skipSep]; split <;> simp; omega
        have := h2 s
        simp at *; omega
      unfold nameOf; simp [hx]
  refine ⟨?_, hne⟩
  have hsep : ∀ x ∈ nameOf c s, x ≠ c.sep := nameOf_sep s
  have e : s = nameOf c s ++ s.drop (nameOf c s).length := by
    conv => lhs; rw [← List.take_append_drop (nameOf c s).length s]
    rw [take_nameOf]
  have hd : s.drop (nameOf c s).length = [] ∨ ∃ r, s.drop (nameOf c s).length = c.sep :: r := by
    have hdw : s.dropWhile (· ≠ c.sep) = s.drop (nameOf c s).length := by
      have h1 := List.takeWhile_append_dropWhile (p := fun x => decide (x ≠ c.sep)) (l := s)
      have h2 : nameOf c s ++ s.dropWhile (fun x => decide (x ≠ c.sep)) = nameOf c s ++ s.drop (nameOf c s).length := by
        rw [← e]; exact h1
      exact List.append_cancel_left h2
    rw [← hdw]
    cases hx : s.dropWhile (· ≠ c.sep) with
    | nil => exact Or.inl rfl
    | cons y r =>
      have := List.head_dropWhile_not (p := fun x => decide (x ≠ c.sep)) (l := s) (by rw [hx]; simp)
      simp only [hx] at this
      rw [decide_eq_false_iff_not] at this
      have hy : y = c.sep := Classical.not_not.1 this
      exact Or.inr ⟨r, by rw [hy]⟩
  generalize nameOf c s = a at *
  generalize s.drop a.length = r at *
  subst e
  unfold comps
  rw [pieces_append _ _ hsep]
  rcases hd with rfl | ⟨r, rfl⟩
  · simp [pieces, hne]
  · simp [pieces, hne]

theorem skipSep_idem (sep : Byte) (s : List Byte) : skipSep sep (skipSep sep s) = skipSep sep s := by
  induction s with
  | nil => rfl
  | cons x s ih =>
    simp only [skipSep]
    split
    · exact ih
    · rename_i h; simp only [skipSep]; rw [if_neg h]

theorem skipSep_ok {sep : Byte} {s : List Byte} (h : CStr.Ok s) : CStr.Ok (skipSep sep s) := by
  induction s with
  | nil => exact h
  | cons x s ih =>
    simp only [skipSep]
    split
    · exact ih (fun y hy => h y (by simp [hy]))
    · exact h

theorem drop_ok {s : List Byte} (h : CStr.Ok s) (n : Nat) : CStr.Ok (s.drop n) := fun x hx => h x (List.mem_of_mem_drop hx)

theorem skipSep_length (sep : Byte) (s : List Byte) : (skipSep sep s).length ≤ s.length := by
  induction s with
  | nil => simp [skipSep]
  | cons y s ih => simp only [skipSep]; split <;> simp; omega

theorem comps_eq_nil {sep : Byte} {s : List Byte} (h : s ≠ []) (hs : skipSep sep s = s) : comps sep s ≠ [] := by
  cases s with
  | nil => exact absurd rfl h
  | cons x s =>
    have hx : x ≠ sep := by
      intro e; simp only [skipSep, if_pos e] at hs
      have h1 := skipSep_length sep s
      rw [hs] at h1; simp at h1
    simp only [comps, pieces, if_neg hx]
    cases pieces sep s <;> simp

theorem hasMore_iff (sep : Byte) (s : List Byte) : hasMore sep s = true ↔ comps sep s ≠ [] := by
  unfold hasMore
  rw [decide_eq_true_iff, ← comps_skip]
  constructor
  · intro h; exact comps_eq_nil h (skipSep_idem ..)
  · intro h e; rw [e] at h; exact h (comps_nil sep)

theorem isDot_iff {s : List Byte} (hs : CStr.Ok s) (h0 : skipSep c.sep s = s) (hne : s ≠ []) : isDot c.sep s = true ↔ nameOf c s = [46#8] := by
  have hh : ∀ x r, s = x :: r → x ≠ c.sep := by
    rintro x r rfl e
    simp only [skipSep, if_pos e] at h0
    have h1 := skipSep_length c.sep r
    rw [h0] at h1; simp at h1
  rcases s with _ | ⟨x, _ | ⟨y, s⟩⟩
  · exact absurd rfl hne
  · have := hh x _ rfl
    simp [isDot, cget, dotCh, nameOf, this]
  · have hx := hh x _ rfl
    have hy : y ≠ 0#8 := hs y (by simp)
    by_cases hys : y = c.sep <;> simp [isDot, cget, dotCh, nameOf, hx, hy, hys]

theorem isDotDot_iff {s : List Byte} (hs : CStr.Ok s) (h0 : skipSep c.sep s = s) (hne : s ≠ []) : isDotDot c.sep s = true ↔ nameOf c s = [46#8, 46#8] := by
  have hh : ∀ x r, s = x :: r → x ≠ c.sep := by
    rintro x r rfl e
    simp only [skipSep, if_pos e] at h0
    have h1 := skipSep_length c.sep r
    rw [h0] at h1; simp at h1
  rcases s with _ | ⟨x, _ | ⟨y, _ | ⟨z, s⟩⟩⟩
  · exact absurd rfl hne
  · have := hh x _ rfl
    simp [isDotDot, cget, dotCh, nameOf, this]
  · have hx := hh x _ rfl
    have hy : y ≠ 0#8 := hs y (by simp)
    by_cases hys : y = c.sep
    · subst hys; simp [isDotDot, cget, dotCh, nameOf, hx, hy]
      intro h1 h2; exact hx (h1.trans h2.symm)
    · simp [isDotDot, cget, dotCh, nameOf, hx, hy, hys]
  · have hx := hh x _ rfl
    have hy : y ≠ 0#8 := hs y (by simp)
    have hz : z ≠ 0#8 := hs z (by simp)
    by_cases hys : y = c.sep
    · subst hys; simp [isDotDot, cget, dotCh, nameOf, hx, hy]
      intro h1 h2; exact absurd (h1.trans h2.symm) hx
    · by_cases hzs : z = c.sep <;> simp [isDotDot, cget, dotCh, nameOf, hx, hy, hys, hz, hzs]

section
variable (hc : c.SysOk) (hp : c.posix = true)
include hc hp

theorem root_dir (h : Reach c v) (hm : v.mounted = true) : ∃ f, IsDir (files c v) 2 f ∧ f.parent = 0 := by
  obtain ⟨f, h1, h2, h3⟩ := root_live (Props.Names.Reach.ns hc hp h hm).graph
  exact ⟨f, h1, h3⟩

theorem reach_inv (h : Reach c v) (hm : v.mounted = true) : Wf c v := (Reach.up hc h hm).wf

theorem file_valid (h : Reach c v) (hm : v.mounted = true) {i : Nat} (hi : files c v i ≠ none) : c.inodeValid i = true :=
  files_valid hc.ok (reach_inv hc hp h hm) (Option.isSome_iff_ne_none.2 hi)

theorem file_kind (h : Reach c v) (hm : v.mounted = true) {i : Nat} (hi : files c v i ≠ none) : ∃ f, IsReg (files c v) i f ∨ IsDir (files c v) i f := by
  cases hf : files c v i with
  | none => exact absurd hf hi
  | some f => exact ⟨f, (files_mode (reach_inv hc hp h hm) hf).imp (fun h => ⟨hf, h⟩) (fun h => ⟨hf, h⟩)⟩

theorem has_live (h : Reach c v) (hm : v.mounted = true) {p i : Nat} {n : List Byte} (hh : Has c (files c v) p n i) :
    (∃ f, IsDir (files c v) p f) ∧ i ≠ 2 ∧ files c v i ≠ none ∧ ∀ f, IsDir (files c v) i f → f.parent = p := by
  obtain ⟨k, hk⟩ := hh
  have g := (Props.Names.Reach.ns hc hp h hm).graph
  have hs : (graphOf c (files c v)).slot p k = some i := slot_some.2 ⟨n, hk⟩
  obtain ⟨h1, h2⟩ := g.live _ _ _ hs
  refine ⟨Props.Names.isDir_of_ent hk, h1, ?_, ?_⟩
  · intro e; rw [node_none e] at h2; cases h2
  · intro f hf
    exact g.parent _ _ _ _ hs (Props.Names.dir_node hf) rfl

theorem parent_dir (h : Reach c v) (hm : v.mounted = true) {i : Nat} {f : AFile} (hf : IsDir (files c v) i f) (hi : i ≠ 2) :
    ∃ g, IsDir (files c v) f.parent g := by
  have g := (Props.Names.Reach.ns hc hp h hm).graph
  obtain ⟨k, hk⟩ := GraphOk.dir_ref g (Props.Names.dir_node hf) rfl hi
  obtain ⟨n, hn⟩ := slot_some.1 hk
  exact Props.Names.isDir_of_ent hn

theorem file_ne0 (h : Reach c v) (hm : v.mounted = true) : files c v 0 = none := by
  cases hf : files c v 0 with
  | none => rfl
  | some f =>
    have := file_valid hc hp h hm (i := 0) (by rw [hf]; simp)
    simp [Conf.inodeValid] at this

/-- `InodeMustBeDir`. -/
theorem mustBeDir_spec (h : Reach c v) (hm : v.mounted = true) {i : Nat} (hi : files c v i ≠ none) :
    ∃ r v', inodeMustBeDir c i v = (r, v') ∧ Same c v v' ∧
      ((r = .ok () ∧ ∃ f, IsDir (files c v) i f) ∨ (r = .error .enotdir ∧ ∃ f, IsReg (files c v) i f)) := by
  unfold inodeMustBeDir
  by_cases h2 : i = 2
  · rw [if_neg (by simp [h2])]
    obtain ⟨f, hf, _⟩ := root_dir hc hp h hm
    exact ⟨_, _, rfl, Same.refl _ _, Or.inl ⟨rfl, f, h2 ▸ hf⟩⟩
  rw [if_pos h2, run_bind]
  obtain ⟨s, q⟩ := stat_typed hc hp h hm i
  rcases hx : coreStat c i v with ⟨r | st, v1⟩
  · rw [hx] at q; exact absurd q.2 hi
  rw [hx] at s q
  dsimp only
  obtain ⟨f, hf, _, hmode, _⟩ := q
  rcases file_kind hc hp h hm hi with ⟨g, hg⟩
  have hfg : f = g := by rcases hg with hg | hg <;> · have := hg.1; rw [hf] at this; exact Option.some.inj this
  subst hfg
  by_cases hd : st.mode = modeDir
  · rw [if_neg (by simp [hd])]
    exact ⟨_, _, rfl, s, Or.inl ⟨rfl, f, hf, hmode.symm.trans hd⟩⟩
  · rw [if_pos hd]
    refine ⟨_, _, rfl, s, Or.inr ⟨rfl, f, ?_⟩⟩
    rcases hg with hg | hg
    · exact hg
    · exact absurd (hmode.trans hg.2) hd

/-- What the loop of `PathWalk` finds. -/
structure LoopOk (c : Conf) (F : Files) (cwd want : Bool) (s : List Byte) (ino pino : Nat) (last : List Byte) (r : Except Err (Nat × Nat × List Byte)) : Prop where
  find : want = true → Walk c F (cwd = true) ino (comps c.sep s) (r.map (·.1))
  none_ : comps c.sep s = [] → r = .ok (ino, pino, last)
  name : want = false → ∀ cs n, comps c.sep s = cs ++ [n] → ¬ (cwd = true ∧ Dotty n) →
    match (motive := Except Err (Nat × Nat × List Byte) → Prop) r with
    | .error e => Walk c F (cwd = true) ino cs (.error e)
    | .ok (_, p, l) => Walk c F (cwd = true) ino cs (.ok p) ∧ nameOf c l = n ∧ CStr.Ok l ∧ skipSep c.sep l = l
  dots : want = false → ∀ cs n, comps c.sep s = cs ++ [n] → cwd = true → Dotty n →
    match (motive := Except Err (Nat × Nat × List Byte) → Prop) r with
    | .error e => Walk c F (cwd = true) ino (comps c.sep s) (.error e)
    | .ok (i, p, l) => Walk c F (cwd = true) ino (comps c.sep s) (.ok i) ∧ (∃ f, IsDir F i f ∧ p = f.parent) ∧ nameOf c l = n ∧ CStr.Ok l ∧ skipSep c.sep l = l

omit hc hp in
theorem LoopOk.fail {F : Files} {cwd want : Bool} {s : List Byte} {ino pino : Nat} {last : List Byte} {e : Err}
    (h0 : comps c.sep s ≠ []) (h : Walk c F (cwd = true) ino (comps c.sep s) (.error e))
    (hn : want = false → ∀ cs n, comps c.sep s = cs ++ [n] → ¬ (cwd = true ∧ Dotty n) → Walk c F (cwd = true) ino cs (.error e)) :
    LoopOk c F cwd want s ino pino last (.error e) :=
  ⟨fun _ => h, fun h => absurd h h0, fun hw cs n h1 h2 => hn hw cs n h1 h2, fun _ cs n h1 h2 h3 => h⟩

omit hc hp in
/-- One step of the loop, of the kind `n0`, from `ino` to `ino'`. -/
theorem LoopOk.step {F : Files} {cwd want : Bool} {s s' : List Byte} {ino ino' pino pino' : Nat} {last last' : List Byte} {n0 : List Byte}
    {r : Except Err (Nat × Nat × List Byte)} (h0 : comps c.sep s = n0 :: comps c.sep s') (hn : nameOf c last' = n0) (hl : CStr.Ok last') (hl' : skipSep c.sep last' = last')
    (hw : ∀ cs r, Walk c F (cwd = true) ino' cs r → Walk c F (cwd = true) ino (n0 :: cs) r)
    (hone : comps c.sep s' = [] → want = false → cwd = true ∧ Dotty n0 ∧ ∃ f, IsDir F ino' f ∧ pino' = f.parent)
    (h : LoopOk c F cwd want s' ino' pino' last' r) : LoopOk c F cwd want s ino pino last r := by
  have split : ∀ cs n, comps c.sep s = cs ++ [n] → (cs = [] ∧ n = n0 ∧ comps c.sep s' = []) ∨ ∃ cs', cs = n0 :: cs' ∧ comps c.sep s' = cs' ++ [n] := by
    intro cs n e
    rw [h0] at e
    cases cs with
    | nil => left; injection e with e1 e2; exact ⟨rfl, e1.symm, e2⟩
    | cons x cs => right; injection e with e1 e2; exact ⟨cs, by rw [e1], e2⟩
  refine ⟨fun w => ?_, fun e => ?_, fun w cs n e nd => ?_, fun w cs n e d1 d2 => ?_⟩
  · rw [h0]; exact hw _ _ (h.find w)
  · rw [h0] at e; cases e
  · rcases split cs n e with ⟨rfl, rfl, e'⟩ | ⟨cs', rfl, e'⟩
    · obtain ⟨a, b, _⟩ := hone e' w; exact absurd ⟨a, b⟩ nd
    · have := h.name w cs' n e' nd
      rcases r with e | ⟨i, p, l⟩
      · exact hw _ _ this
      · exact ⟨hw _ _ this.1, this.2⟩
  · rcases split cs n e with ⟨rfl, rfl, e'⟩ | ⟨cs', rfl, e'⟩
    · have hr := h.none_ e'; subst hr
      obtain ⟨_, _, hd⟩ := hone e' w
      refine ⟨?_, hd, hn, hl, hl'⟩
      rw [h0, e']; exact hw _ _ .done
    · have := h.dots w cs' n e' d1 d2
      rw [h0]
      rcases r with e | ⟨i, p, l⟩
      · exact hw _ _ this
      · exact ⟨hw _ _ this.1, this.2⟩

omit hc hp in
theorem walkLoop_end {cwd want : Bool} {fuel : Nat} {s : List Byte} (h : comps c.sep s = []) (ino pino : Nat) (last : List Byte) (v : Vol) :
    walkLoop c cwd want (fuel + 1) s ino pino last v = (.ok (ino, pino, last), v) := by
  have : skipSep c.sep s = [] := by
    by_cases e : skipSep c.sep s = []
    · exact e
    · exact absurd (by rw [comps_skip]; exact h) (comps_eq_nil e (skipSep_idem ..))
  unfold walkLoop
  rw [if_pos this]; rfl

theorem walkLoop_spec {cwd want : Bool} (fuel : Nat) : ∀ {v : Vol} (h : Reach c v) (hm : v.mounted = true) {s : List Byte} (hs : CStr.Ok s) (hf : s.length < fuel)
    {ino : Nat} (hi : files c v ino ≠ none) {pino : Nat} (hpar : cwd = true → ∀ f, IsDir (files c v) ino f → pino = f.parent) (last : List Byte),
    ∃ r v', walkLoop c cwd want fuel s ino pino last v = (r, v') ∧ Same c v v' ∧ LoopOk c (files c v) cwd want s ino pino last r := by
  induction fuel with
  | zero => intro v h hm s hs hf; omega
  | succ fuel ih =>
    intro v h hm s hs hf ino hi pino hpar last
    by_cases h0 : skipSep c.sep s = []
    · have hcs : comps c.sep s = [] := by rw [← comps_skip, h0]; exact comps_nil _
      refine ⟨_, _, walkLoop_end hcs .., Same.refl _ _, ?_⟩
      refine ⟨fun _ => by rw [hcs]; exact .done, fun _ => rfl, fun _ cs n e => ?_, fun _ cs n e => ?_⟩ <;>
        · rw [hcs] at e; simp at e
    have hidem := skipSep_idem c.sep s
    have hok := skipSep_ok (sep := c.sep) hs
    have hlen := skipSep_length c.sep s
    have hcs := comps_skip c.sep s
    obtain ⟨hn1, hn2⟩ := comps_name (c := c) hidem h0
    have hdot := isDot_iff (c := c) hok hidem h0
    have hdd := isDotDot_iff (c := c) hok hidem h0
    rw [hcs] at hn1
    have hnl := nameLen_nameOf (c := c) hok
    unfold walkLoop
    rw [if_neg h0]
    dsimp only
    generalize hgs : skipSep c.sep s = t at *
    have htl : 0 < t.length := List.length_pos_iff.2 h0
    have hnlt : 0 < (nameOf c t).length := List.length_pos_iff.2 hn2
    -- "." and ".."
    by_cases hcd : cwd = true ∧ Dotty (nameOf c t)
    · obtain ⟨hcwd, hdy⟩ := hcd
      subst hcwd
      obtain ⟨r0, v0, e0, s0, hr0⟩ := mustBeDir_spec hc hp h hm hi
      have bad : r0 = .error .enotdir → (∃ f, IsReg (files c v) ino f) → LoopOk c (files c v) true want s ino pino last (.error .enotdir) := by
        rintro rfl ⟨f, hf⟩
        refine .fail (by rw [hn1]; simp) (by rw [hn1]; exact .notDir hf) ?_
        intro _ cs n e nd
        rw [hn1] at e
        cases cs with
        | nil => injection e with e1 _; exact absurd ⟨rfl, e1 ▸ hdy⟩ nd
        | cons x cs => exact .notDir hf
      have h1 := s0.reach h
      have hm1 := s0.mounted.trans hm
      have hF := s0.files hm
      rcases hdy with hdy | hdy
      · rw [if_pos (by rw [hdot.2 hdy]; rfl), run_bind, e0]
        rcases hr0 with ⟨rfl, f, hfd⟩ | ⟨rfl, hreg⟩
        · dsimp only
          obtain ⟨r, v', e, s', l⟩ := ih h1 hm1 (drop_ok hok 1) (by simp; omega) (by rw [hF]; exact hi) (by rw [hF]; exact hpar) t
          refine ⟨r, v', e, s0.trans s', ?_⟩
          rw [hF] at l
          rw [hdy] at hn1
          refine .step hn1 hdy hok hidem (fun cs r w => .dot rfl hfd w) ?_ l
          intro _ _
          exact ⟨rfl, Or.inl rfl, f, hfd, hpar rfl f hfd⟩
        · exact ⟨_, _, rfl, s0, bad rfl hreg⟩
      · rw [if_neg (by rw [Bool.and_eq_true, hdot, hdy]; simp), if_pos (by rw [hdd.2 hdy]; rfl), run_bind, e0]
        rcases hr0 with ⟨rfl, f, hfd⟩ | ⟨rfl, hreg⟩
        · dsimp only
          have hpf := hpar rfl f hfd
          have hup : (if ino ≠ 2 then pino else ino) = if ino = 2 then 2 else f.parent := by
            by_cases h2 : ino = 2
            · rw [if_neg (by simp [h2]), if_pos h2, h2]
            · rw [if_pos h2, if_neg h2, hpf]
          rw [hup]
          have hdir : ∃ g, IsDir (files c v) (if ino = 2 then 2 else f.parent) g := by
            by_cases h2 : ino = 2
            · rw [if_pos h2]; exact ⟨f, h2 ▸ hfd⟩
            · rw [if_neg h2]; exact parent_dir hc hp h hm hfd h2
          generalize hi' : (if ino = 2 then 2 else f.parent) = ino' at *
          obtain ⟨g, hg⟩ := hdir
          rw [run_bind]
          obtain ⟨s1, q⟩ := dirParent_typed hc hp h1 hm1 ino'
          rcases hx : coreDirParent c ino' v0 with ⟨x | pn, v1⟩
          · rw [hx, hF] at q
            exact absurd q (Props.Names.not_notDir hg)
          rw [hx] at s1 q
          rw [hF] at q
          dsimp only
          obtain ⟨g', hg', rfl⟩ := q
          have hgg : g' = g := by have := hg'.1; rw [hg.1] at this; exact (Option.some.inj this).symm
          subst hgg
          have hF1 := (s1.files hm1).trans hF
          obtain ⟨r, v', e, s', l⟩ := ih (s1.reach h1) (s1.mounted.trans hm1) (drop_ok hok 2) (by simp; omega) (ino := ino') (by rw [hF1, hg.1]; simp)
            (pino := g'.parent) (by rw [hF1]; intro _ f' hf'; have := hf'.1; rw [hg.1] at this; rw [Option.some.inj this]) t
          refine ⟨r, v', e, (s0.trans s1).trans s', ?_⟩
          rw [hF1] at l
          rw [hdy] at hn1
          refine .step hn1 hdy hok hidem (fun cs r w => .up rfl hfd (by rw [hi']; exact w)) ?_ l
          intro _ _
          exact ⟨rfl, Or.inr rfl, g', hg, rfl⟩
        · exact ⟨_, _, rfl, s0, bad rfl hreg⟩
    -- a name
    · have hd1 : ¬ (cwd && isDot c.sep t) = true := by
        rw [Bool.and_eq_true, hdot]; exact fun ⟨a, b⟩ => hcd ⟨a, Or.inl b⟩
      have hd2 : ¬ (cwd && isDotDot c.sep t) = true := by
        rw [Bool.and_eq_true, hdd]; exact fun ⟨a, b⟩ => hcd ⟨a, Or.inr b⟩
      rw [if_neg hd1, if_neg hd2, hnl]
      by_cases hl : (hasMore c.sep (t.drop (nameOf c t).length) || want) = true
      · rw [if_pos hl, run_bind]
        obtain ⟨s0, q⟩ := lookup_typed hc hp h hm ino hok
        rcases hx : coreLookup c ino t v with ⟨x | j, v0⟩
        · rw [hx] at s0 q
          have hfl : ∀ cs, Walk c (files c v) (cwd = true) ino (nameOf c t :: cs) (.error x) := by
            intro cs
            rcases q with (⟨_, q⟩ | ⟨rfl, g, q⟩) | ⟨⟨g, hg⟩, (⟨q, _⟩ | ⟨q, rfl⟩) | ⟨_, q1, rfl, q2⟩⟩
            · exact absurd q hi
            · exact .notDir q
            · omega
            · exact .tooLong hcd hg q
            · exact .missing hcd hg q1 q2
          refine ⟨_, _, rfl, s0, .fail (by rw [hn1]; simp) (by rw [hn1]; exact hfl _) ?_⟩
          intro hw cs n e nd
          rw [hn1] at e
          cases cs with
          | nil =>
            injection e with e1 e2
            rw [hw, Bool.or_false, hasMore_iff] at hl
            exact absurd e2 hl
          | cons y cs => injection e with e1 e2; rw [← e1]; exact hfl _
        · rw [hx] at s0 q
          dsimp only
          obtain ⟨l1, l2, l3, l4⟩ := has_live hc hp h hm q
          have hF := s0.files hm
          obtain ⟨r, v', e, s', l⟩ := ih (s0.reach h) (s0.mounted.trans hm) (drop_ok hok (nameOf c t).length) (by simp; omega) (ino := j) (by rw [hF]; exact l3)
            (pino := ino) (by rw [hF]; intro _ f hf; exact (l4 f hf).symm) t
          refine ⟨r, v', e, s0.trans s', ?_⟩
          rw [hF] at l
          refine .step hn1 rfl hok hidem (fun cs r w => .name hcd q w) ?_ l
          intro he hw
          rw [hw, Bool.or_false, hasMore_iff] at hl
          exact absurd he hl
      · rw [if_neg hl, run_bind]
        have hl1 : comps c.sep (t.drop (nameOf c t).length) = [] := by
          by_cases e : comps c.sep (t.drop (nameOf c t).length) = []
          · exact e
          · exact absurd (by rw [(hasMore_iff _ _).2 e]; rfl) hl
        have hw : want = false := by cases want with
          | false => rfl
          | true => exact absurd (by simp) hl
        have hfu : ∃ k, fuel = k + 1 := ⟨fuel - 1, by omega⟩
        obtain ⟨k, rfl⟩ := hfu
        show ∃ r v', walkLoop c cwd want (k + 1) _ ino ino t v = (r, v') ∧ _
        rw [walkLoop_end hl1]
        refine ⟨_, _, rfl, Same.refl _ _, ?_⟩
        rw [hl1] at hn1
        refine ⟨fun w => ?_, fun e => ?_, fun w cs n e nd => ?_, fun w cs n e d1 d2 => ?_⟩
        · rw [hw] at w; cases w
        · rw [hn1] at e; cases e
        · rw [hn1] at e
          cases cs with
          | nil => injection e with e1 _; exact ⟨.done, e1, hok, hidem⟩
          | cons y cs => simp at e
        · rw [hn1] at e
          cases cs with
          | nil => injection e with e1 _; exact absurd ⟨d1, e1 ▸ d2⟩ hcd
          | cons y cs => simp at e

theorem walk_live (h : Reach c v) (hm : v.mounted = true) {dots : Prop} {i : Nat} {cs : List (List Byte)} {r : Except Err Nat}
    (hi : files c v i ≠ none) (w : Walk c (files c v) dots i cs r) : ∀ j, r = .ok j → files c v j ≠ none := by
  induction w with
  | done => intro j e; injection e with e; exact e ▸ hi
  | name _ hh _ ih => exact ih (has_live hc hp h hm hh).2.2.1
  | dot _ _ _ ih => exact ih hi
  | @up i f _ _ _ hd _ ih =>
    refine ih ?_
    by_cases h2 : i = 2
    · rw [if_pos h2]; rw [h2] at hi; exact hi
    · rw [if_neg h2]; obtain ⟨g, hg⟩ := parent_dir hc hp h hm hd h2; rw [hg.1]; simp
  | notDir => intro j e; cases e
  | tooLong => intro j e; cases e
  | missing => intro j e; cases e

/-- `PathWalk` up to its last check. -/
theorem pathWalk_spec (h : Reach c v) (hm : v.mounted = true) {cwd want : Bool} {s : List Byte} (hs : CStr.Ok s) {start : Nat}
    (hd : ∃ f, IsDir (files c v) start f) (h2 : cwd = false → start = 2) (re : Option Err) :
    ∃ r v' pino, Same c v v' ∧ LoopOk c (files c v) cwd want s start pino s r ∧ (start = 2 → pino = 0) ∧
      pathWalk c cwd start s re want v = (match (motive := Except Err (Nat × Nat × List Byte) → Except Err (Nat × Nat × List Byte)) r with
        | .error e => .error e
        | .ok (i, p, l) => match re with
          | some e => if p = 0 then .error e else .ok (i, p, l)
          | none => .ok (i, p, l), v') := by
  obtain ⟨f, hf⟩ := hd
  have h0 := file_ne0 hc hp h hm
  have hs0 : start ≠ 0 := by rintro rfl; rw [hf.1] at h0; cases h0
  obtain ⟨g, hg, hg0⟩ := root_dir hc hp h hm
  have key : ∀ {v1 : Vol} (s1 : Same c v v1) (p0 : Nat), (cwd = true → p0 = f.parent) → (start = 2 → p0 = 0) →
      ∃ r v' pino, Same c v v' ∧ LoopOk c (files c v) cwd want s start pino s r ∧ (start = 2 → pino = 0) ∧
      (do let (ino, pino, last) ← walkLoop c cwd want (s.length + 1) s start p0 s
          match re with
          | some e => if pino = 0 then fail e else pure (ino, pino, last)
          | none => pure (ino, pino, last) : VM (Nat × Nat × List Byte)) v1 = (match (motive := Except Err (Nat × Nat × List Byte) → Except Err (Nat × Nat × List Byte)) r with
        | .error e => .error e
        | .ok (i, p, l) => match re with
          | some e => if p = 0 then .error e else .ok (i, p, l)
          | none => .ok (i, p, l), v') := by
    intro v1 s1 pino hpar hz
    have hF := s1.files hm
    obtain ⟨r, v', e, s', l⟩ := walkLoop_spec hc hp (cwd := cwd) (want := want) (s.length + 1) (s1.reach h) (s1.mounted.trans hm) hs (Nat.lt_succ_self _) (ino := start)
      (by rw [hF, hf.1]; simp) (pino := pino) (by
        rw [hF]; intro hcw f' hf'; have := hf'.1; rw [hf.1] at this; rw [← Option.some.inj this]; exact hpar hcw) s
    rw [hF] at l
    refine ⟨r, v', pino, s1.trans s', l, hz, ?_⟩
    rw [run_bind, e]
    rcases r with e | ⟨i, p, l⟩
    · rfl
    · dsimp only
      cases re with
      | none => rfl
      | some e => dsimp only; split <;> rfl
  have hz : start = 2 → f.parent = 0 := by
    rintro rfl
    have := hf.1; rw [hg.1] at this; rw [← Option.some.inj this]; exact hg0
  unfold pathWalk
  cases cwd with
  | false =>
    rw [if_neg (by simp [h2 rfl]), if_neg (by simp), run_bind]
    exact key (Same.refl c v) 0 (fun h => by cases h) (fun _ => rfl)
  | true =>
    rw [if_neg (by simp [hs0]), if_pos rfl, run_bind]
    obtain ⟨s1, q⟩ := dirParent_typed hc hp h hm start
    rcases hx : coreDirParent c start v with ⟨x | pn, v1⟩
    · rw [hx] at q; exact absurd q (Props.Names.not_notDir hf)
    rw [hx] at s1 q
    obtain ⟨f', hf', rfl⟩ := q
    have : f' = f := by have := hf'.1; rw [hf.1] at this; exact (Option.some.inj this).symm
    subst this
    exact key s1 f'.parent (fun _ => rfl) hz

/-- `RedPathLookup` follows the elements of the path. -/
theorem pathLookup_spec (h : Reach c v) (hm : v.mounted = true) {cwd : Bool} {s : List Byte} (hs : CStr.Ok s) {start : Nat}
    (hd : ∃ f, IsDir (files c v) start f) (h2 : cwd = false → start = 2) :
    ∃ r v', pathLookup c cwd start s v = (r, v') ∧ Same c v v' ∧ Walk c (files c v) (cwd = true) start (comps c.sep s) r := by
  obtain ⟨r, v', pino, s', l, _, e⟩ := pathWalk_spec hc hp h hm (want := true) hs hd h2 none
  unfold pathLookup
  rw [run_bind, e]
  have := l.find rfl
  rcases r with e | ⟨i, p, l⟩
  · exact ⟨_, _, rfl, s', this⟩
  · exact ⟨_, _, rfl, s', this⟩

omit hc hp in
theorem snoc_of_ne {α : Type} {l : List α} (h : l ≠ []) : ∃ a x, l = a ++ [x] := ⟨l.dropLast, l.getLast h, (List.dropLast_append_getLast h).symm⟩

/-- `RedPathToName` finds the directory and the name. -/
theorem pathToName_spec (h : Reach c v) (hm : v.mounted = true) {cwd : Bool} {s : List Byte} (hs : CStr.Ok s) {start : Nat}
    (hd : ∃ f, IsDir (files c v) start f) (h2 : cwd = false → start = 2) (hcs : start = 2 ∨ comps c.sep s ≠ []) (re : Err) :
    ∃ r v', pathToName c cwd start s re v = (r, v') ∧ Same c v v' ∧
      ToName c (files c v) (cwd = true) start re (comps c.sep s) (r.map fun x => (x.1, nameOf c x.2)) ∧ ∀ p l, r = .ok (p, l) → CStr.Ok l := by
  obtain ⟨r, v', pino, s', l, hz, e⟩ := pathWalk_spec hc hp h hm (want := false) hs hd h2 (some re)
  unfold pathToName
  rw [run_bind, e]
  have h0 := file_ne0 hc hp h hm
  have hst : files c v start ≠ none := by obtain ⟨f, hf⟩ := hd; rw [hf.1]; simp
  by_cases hnil : comps c.sep s = []
  · have hr := l.none_ hnil
    subst hr
    rcases hcs with hst | hx
    · dsimp only
      rw [if_pos (hz hst)]
      exact ⟨_, _, rfl, s', by rw [hnil]; exact .root hst, fun _ _ h => by cases h⟩
    · exact absurd hnil hx
  obtain ⟨cs, n, hcn⟩ := snoc_of_ne hnil
  have hn0 : n ≠ [] := by
    have : n ∈ comps c.sep s := by rw [hcn]; simp
    unfold comps at this
    simpa using (List.mem_filter.1 this).2
  by_cases hdy : cwd = true ∧ Dotty n
  · have ld := l.dots rfl cs n hcn hdy.1 hdy.2
    rcases r with x | ⟨i, p, nm⟩
    · rw [hcn] at ld ⊢
      exact ⟨_, _, rfl, s', .dotsError hdy.1 hdy.2 ld, fun _ _ h => by cases h⟩
    · obtain ⟨w, ⟨f, hf, rfl⟩, l3, l4, l5⟩ := ld
      dsimp only
      by_cases hp0 : f.parent = 0
      · rw [if_pos hp0]
        have hi2 : i = 2 := by
          by_cases hi2 : i = 2
          · exact hi2
          · obtain ⟨g, hg⟩ := parent_dir hc hp h hm hf hi2
            rw [hp0, IsDir, h0] at hg; cases hg.1
        subst hi2
        rw [hcn] at w ⊢
        exact ⟨_, _, rfl, s', .dotsRoot hdy.1 hdy.2 w, fun _ _ h => by cases h⟩
      · rw [if_neg hp0]
        dsimp only
        have hnm : nm ≠ [] := by rintro rfl; exact hn0 l3.symm
        have hi2 : i ≠ 2 := by
          rintro rfl
          obtain ⟨g, hg, hg0⟩ := root_dir hc hp h hm
          have := hf.1; rw [hg.1] at this; rw [← Option.some.inj this] at hp0; exact hp0 hg0
        rw [if_pos (by
          rw [Bool.and_eq_true, Bool.or_eq_true, isDot_iff l4 l5 hnm, isDotDot_iff l4 l5 hnm, l3]; exact hdy)]
        rw [hcn] at w ⊢
        exact ⟨_, _, rfl, s', .dots hdy.1 hdy.2 w hi2, fun _ _ h => by cases h⟩
  · have ld := l.name rfl cs n hcn hdy
    rcases r with x | ⟨i, p, nm⟩
    · rw [hcn]
      exact ⟨_, _, rfl, s', .error hdy ld, fun _ _ h => by cases h⟩
    · obtain ⟨w, l3, l4, l5⟩ := ld
      dsimp only
      have hp0 : p ≠ 0 := by
        rintro rfl
        exact walk_live hc hp h hm hst w 0 rfl h0
      rw [if_neg hp0]
      dsimp only
      have hnm : nm ≠ [] := by rintro rfl; exact hn0 l3.symm
      rw [if_neg (by
          rw [Bool.and_eq_true, Bool.or_eq_true, isDot_iff l4 l5 hnm, isDotDot_iff l4 l5 hnm, l3]; exact hdy)]
      refine ⟨_, _, rfl, s', ?_, fun p' l' h => ?_⟩
      · rw [hcn]; show ToName _ _ _ _ _ _ (.ok (p, nameOf c nm)); rw [l3]; exact .name hdy w
      · injection h with h; injection h with h1 h2; exact h2 ▸ l4

end

end RedFs
