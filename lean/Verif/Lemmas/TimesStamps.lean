import Verif.Lemmas.TimesReach
set_option linter.unusedSimpArgs false
set_option linter.unusedVariables false
/-!
The stamps of each file after a call.
-/
namespace RedFs.Times
open RedFs M Str

variable {c : Conf} {clk : Nat → Nat} {α β : Type}

/-- What a successful call that is not a rollback, a mount or an unmount does to the files of a mounted volume. -/
theorem plain_does (hc : c.SysOk) {v v' : Vol} {k : Call} {r : Reply} (hr : RedFs.Reach c v) (hm : v.mounted = true) (hk : k.Ok c) (hp : Plain k)
    (h : RedFs.exec c k v = (.ok r, v')) : ∃ s s' tr, Spec.Does c k s (.ok r) s' tr ∧ s.mounted = true ∧ s.ro = v.readOnly ∧ s.now = files c v ∧ s'.now = files c v' := by
  have ha : Abs c v ⟨true, v.readOnly, v.transMask, files c v, some (committedFiles c v)⟩ := .up rfl (up hc hr hm) rfl rfl rfl rfl
  obtain ⟨r', v1, s', tr, e, hd, ha', _⟩ := exec_sim hc ha hk
  rw [h] at e
  simp only [Prod.mk.injEq] at e
  obtain ⟨rfl, rfl⟩ := e
  have hm' : s'.mounted = true := hd.mounted (fun h => by subst h; exact hp) (Or.inl rfl)
  obtain ⟨_, h2, _⟩ := ha'.inv hm'
  exact ⟨_, s', tr, hd, rfl, rfl, rfl, h2⟩

/-- Files appear by being created. -/
theorem born (hc : c.SysOk) {v v' : Vol} {k : Call} {r : Reply} (hr : RedFs.Reach c v) (hm : v.mounted = true) (hk : k.Ok c) (hp : Plain k)
    (h : RedFs.exec c k v = (.ok r, v')) {i : Nat} (hi : files c v' i ≠ none) : files c v i ≠ none ∨ ((∃ p nm d, k = .create p nm d) ∧ r = .num i) := by
  obtain ⟨s, s', tr, hd, hms, _, hF, hF'⟩ := plain_does hc hr hm hk hp h
  rw [← hF', ] at hi
  rw [← hF]
  have mod : ∀ {ev : Event} {R : Files → Except Err Reply → Files → Prop}, Spec.Modify ev R s (.ok r) s' tr → R s.now (.ok r) s'.now := by
    intro ev R h
    unfold Spec.Modify at h
    rw [if_neg (by rw [hms]; simp)] at h
    split at h
    · cases h.1
    · obtain ⟨pre, F, _, h2, _, h4⟩ := h
      rw [h4]; exact h2
  have ask : ∀ {Q : Files → Except Err Reply → Prop}, Spec.Ask Q s (.ok r) s' tr → s.now i ≠ none := fun h => by rw [h.1] at hi; exact hi
  have kept : ∀ {F F' : Files} {p : Nat}, Spec.DirKept F F' p → F p ≠ none := fun ⟨f, f', h1, _⟩ => by rw [h1.1]; simp
  cases k with
  | create p name isDir =>
    obtain ⟨r0, e, h⟩ := mod hd
    rcases r0 with e0 | j
    · cases e
    have e : r = .num j := Except.ok.inj e
    obtain ⟨_, _, _, _, _, _, h1, h2, _⟩ := h
    by_cases hij : i = j
    · exact Or.inr ⟨⟨_, _, _, rfl⟩, by rw [hij]; exact e⟩
    · by_cases hip : i = p
      · rw [hip]; exact Or.inl (kept h1)
      · rw [h2 i hij hip] at hi; exact Or.inl hi
  | link p name ino =>
    obtain ⟨r0, e, h⟩ := mod hd
    rcases r0 with e0 | ⟨⟩
    · cases e
    obtain ⟨_, _, f, hf, _, _, h1, h2, _⟩ := h
    by_cases hij : i = ino
    · rw [hij, hf.1]; exact Or.inl (by simp)
    · by_cases hip : i = p
      · rw [hip]; exact Or.inl (kept h1)
      · rw [h2 i hij hip] at hi; exact Or.inl hi
  | unlink p name =>
    obtain ⟨r0, e, h⟩ := mod hd
    rcases r0 with e0 | ⟨⟩
    · cases e
    obtain ⟨j, f, _, hf, _, _, h1, h2, _⟩ := h
    by_cases hij : i = j
    · rw [hij, hf]; exact Or.inl (by simp)
    · by_cases hip : i = p
      · rw [hip]; exact Or.inl (kept h1)
      · rw [h2 i hij hip] at hi; exact Or.inl hi
  | rename p name p' name' =>
    obtain ⟨r0, e, h⟩ := mod hd
    rcases r0 with e0 | ⟨⟩
    · cases e
    rcases h with ⟨h, _⟩ | ⟨j, f, _, hf, _, _, _, _, _, k1, k2, _, h⟩
    · rw [h] at hi; exact Or.inl hi
    by_cases hij : i = j
    · rw [hij, hf]; exact Or.inl (by simp)
    by_cases hip : i = p
    · rw [hip]; exact Or.inl (kept k1)
    by_cases hip' : i = p'
    · rw [hip']; exact Or.inl (kept k2)
    rcases h with ⟨_, h⟩ | ⟨q, g, _, _, hg, _, _, _, _, _, _, h⟩
    · rw [h i hij hip hip'] at hi; exact Or.inl hi
    · by_cases hiq : i = q
      · rw [hiq, hg]; exact Or.inl (by simp)
      · rw [h i hij hiq hip hip'] at hi; exact Or.inl hi
  | write ino start len buf =>
    obtain ⟨r0, e, h⟩ := mod hd
    rcases r0 with e0 | n
    · cases e
    obtain ⟨f, hf, _, _, _, h⟩ := h
    rw [h] at hi
    by_cases hij : i = ino
    · rw [hij, hf.1]; exact Or.inl (by simp)
    · rw [Files.set_other _ _ hij] at hi; exact Or.inl hi
  | truncate ino size =>
    obtain ⟨r0, e, h⟩ := mod hd
    rcases r0 with e0 | n
    · cases e
    obtain ⟨f, hf, _, h⟩ := h
    rw [h] at hi
    by_cases hij : i = ino
    · rw [hij, hf.1]; exact Or.inl (by simp)
    · rw [Files.set_other _ _ hij] at hi; exact Or.inl hi
  | lookup p name => exact Or.inl (ask hd)
  | dirRead p pos => exact Or.inl (ask hd)
  | dirParent p => exact Or.inl (ask hd)
  | read ino start len => exact Or.inl (ask hd)
  | stat ino => exact Or.inl (ask hd)
  | fileSize ino => exact Or.inl (ask hd)
  | statfs => exact Or.inl (ask hd)
  | maskGet => exact Or.inl (ask (Q := fun _ r => r = .ok (.num s.mask)) hd)
  | maskSet mask =>
    obtain ⟨_, h⟩ := hd
    split at h
    · cases h.1
    split at h
    · cases h.1
    · rw [h.2] at hi; exact Or.inl hi
  | transact =>
    have h : if s.mounted = false then _ else _ := hd
    rw [if_neg (by rw [hms]; simp)] at h
    split at h
    · cases h.1
    · rw [h.2.2] at hi; exact Or.inl hi
  | rollback => exact hp.elim
  | mount ro => exact hp.elim
  | unmount => exact hp.elim

/-- A file that has lost its last name is gone. -/
theorem unlink_gone (hc : c.SysOk) {v v' : Vol} {p : Nat} {nm : List Byte} {r : Reply} (hr : RedFs.Reach c v) (hm : v.mounted = true) (hk : (Call.unlink p nm).Ok c)
    (h : RedFs.exec c (.unlink p nm) v = (.ok r, v')) {j : Nat} {g : AFile} (hj : Has c (files c v) p (nameOf c nm) j) (hg : files c v j = some g) (hl : ¬ 1 < g.nlink) :
    files c v' j = none := by
  obtain ⟨s, s', tr, hd, hms, hro, hF, hF'⟩ := plain_does hc hr hm hk trivial h
  have hi := up hc hr hm
  rw [Sound.posix hk.1] at hi
  have h : Spec.Modify .unlink _ s (.ok r) s' tr := hd
  unfold Spec.Modify at h
  rw [if_neg (by rw [hms]; simp)] at h
  split at h
  · cases h.1
  obtain ⟨pre, F, _, ⟨r0, e, h2⟩, _, h4⟩ := h
  rcases r0 with e0 | ⟨⟩
  · cases e
  obtain ⟨i, f, h5, h6, _, h7, _⟩ := h2
  rw [hF] at h5 h6
  have hij := has_uniq hc.ok (hc.posixOk hk.1) hi h5 hj
  subst hij
  rw [hg] at h6
  have h6 := Option.some.inj h6
  subst h6
  rw [← hF', h4]
  show F i = none
  rw [h7]
  unfold Spec.unlinked
  rw [if_neg hl]

theorem Accessed.mk (s : Stamp) (e : Mark) (x : Nat) : (s.mark e.a e.m e.ch x).a = if e.a = true then x else s.a := rfl

theorem stamped (hc : c.SysOk) (hts : c.timestamps = true) {s s' : St} {k : Call} {r : Reply} (hg : Good c s) (hm : s.v.mounted = true) (hk : k.Ok c) (hp : Plain k)
    (h : exec c clk k s = (.ok r, s')) {i : Nat} (hi : files c s'.v i ≠ none) : Stamped c clk s.v.readOnly (files c s.v) k r s.t s'.t i := by
  have he := exec_erase h
  obtain ⟨L0, L, hL0, hM, hS⟩ := (exec_done hc hk hp (up hc hg.vol hm) (hg.keep hm) h).ok r rfl
  have hb := born hc hg.vol hm hk hp he hi
  -- the marks of the last attempt decide
  have last : ∀ {bit : Mark → Bool} {Q : Prop}, (((∃ p nm d, k = .create p nm d) ∧ r = .num i) → ∃ x ∈ L, x.i = i ∧ bit x = true) → (Q ↔ ∃ x ∈ L, x.i = i ∧ bit x = true) →
      (Q ↔ ∃ x ∈ L0 ++ L, x.i = i ∧ bit x = true) := by
    intro bit Q hn hQ
    rw [hQ]
    constructor
    · rintro ⟨x, hx, hb⟩; exact ⟨x, List.mem_append.2 (Or.inr hx), hb⟩
    · rintro ⟨x, hx, hxi, hbx⟩
      rcases List.mem_append.1 hx with hx | hx
      · rcases hb with hb | hb
        · exact absurd (hxi ▸ hL0 x hx) hb
        · exact hn hb
      · exact ⟨x, hx, hxi, hbx⟩
  have new : ∀ {bit : Mark → Bool}, (∀ j, bit ⟨j, true, true, true⟩ = true) → ((∃ p nm d, k = .create p nm d) ∧ r = .num i) → ∃ x ∈ L, x.i = i ∧ bit x = true := by
    rintro bit hbit ⟨⟨p, nm, d, rfl⟩, rfl⟩
    have hM : L = [⟨i, true, true, true⟩, ⟨p, false, true, true⟩] := hM
    rw [hM]
    exact ⟨_, List.mem_cons_self, rfl, hbit i⟩
  have key : (Accessed c s.v.readOnly i k r ↔ ∃ x ∈ L, x.i = i ∧ x.a = true) ∧ (Modified c (files c s.v) i k r ↔ ∃ x ∈ L, x.i = i ∧ x.m = true) ∧
      (Changed c (files c s.v) i k r ↔ ∃ x ∈ L, x.i = i ∧ x.ch = true) := by
    cases k with
    | create p name isDir =>
      cases r with
      | num j =>
        have hM : L = [⟨j, true, true, true⟩, ⟨p, false, true, true⟩] := hM
        subst hM
        unfold Changed
        simp [Accessed, Modified, eq_comm (a := i), or_comm]
      | _ => exact hM.elim
    | link p name ino =>
      have hM : L = [⟨ino, false, false, true⟩, ⟨p, false, true, true⟩] := hM
      subst hM
      unfold Changed
      simp [Accessed, Modified, eq_comm (a := i), or_comm]
    | unlink p name =>
      have hM : ∃ j g, Has c (files c s.v) p (nameOf c name) j ∧ files c s.v j = some g ∧ L = (if 1 < g.nlink then [⟨j, false, false, true⟩] else []) ++ [⟨p, false, true, true⟩] := hM
      obtain ⟨j, g, h1, h2, rfl⟩ := hM
      have hii := up hc hg.vol hm
      rw [Sound.posix hk.1] at hii
      have hu : Has c (files c s.v) p (nameOf c name) i ↔ i = j :=
        ⟨fun h => has_uniq hc.ok (hc.posixOk hk.1) hii h h1, fun h => h ▸ h1⟩
      unfold Changed
      dsimp only
      rw [hu]
      by_cases hl : 1 < g.nlink
      · rw [if_pos hl]
        simp [Accessed, Modified, eq_comm (a := i), or_comm]
      · rw [if_neg hl]
        have hij : i ≠ j := by
          rintro rfl
          exact hi (unlink_gone hc hg.vol hm hk he h1 h2 hl)
        simp [Accessed, Modified, hij, eq_comm (a := i)]
    | rename p name p' name' =>
      have hM : (L = [] ∧ SameFile c (files c s.v) p (nameOf c name) p' (nameOf c name')) ∨ ∃ i, Has c (files c s.v) p (nameOf c name) i ∧ ¬ SameFile c (files c s.v) p (nameOf c name) p' (nameOf c name') ∧
        L = [⟨i, false, false, true⟩, ⟨p', false, true, true⟩] ++ (if p = p' then [] else [⟨p, false, true, true⟩]) := hM
      unfold Changed
      rcases hM with ⟨rfl, h1⟩ | ⟨j, h1, h2, rfl⟩
      · simp [Accessed, Modified, h1]
      · have hii := up hc hg.vol hm
        rw [Sound.posix hk.1] at hii
        have hu : Has c (files c s.v) p (nameOf c name) i ↔ i = j :=
          ⟨fun h => has_uniq hc.ok (hc.posixOk hk.1) hii h h1, fun h => h ▸ h1⟩
        dsimp only
        rw [hu]
        by_cases hpp : p = p'
        · subst hpp
          simp [Accessed, Modified, h2, eq_comm (a := i), or_comm]
        · simp only [Accessed, Modified, h2, if_neg hpp, not_false_eq_true, true_and, List.cons_append, List.nil_append, List.mem_cons, List.not_mem_nil, or_false,
            exists_eq_or_imp, exists_eq_left, Bool.false_eq_true, and_false, and_true, or_self, false_or, eq_comm (a := i), false_iff, not_false_eq_true]
          refine ⟨or_comm, ?_⟩
          constructor
          · rintro ((h | h) | h)
            · exact Or.inr (Or.inr h)
            · exact Or.inr (Or.inl h)
            · exact Or.inl h
          · rintro (h | h | h)
            · exact Or.inr h
            · exact Or.inl (Or.inr h)
            · exact Or.inl (Or.inl h)
    | write ino start len buf =>
      have hM : L = [⟨ino, false, true, true⟩] := hM
      subst hM
      unfold Changed
      simp [Accessed, Modified, eq_comm (a := i)]
    | truncate ino size =>
      have hM : L = [⟨ino, false, true, true⟩] := hM
      subst hM
      unfold Changed
      simp [Accessed, Modified, eq_comm (a := i)]
    | read ino start len =>
      have hM : L = if c.atime = true ∧ 0 < len ∧ s.v.readOnly = false then [⟨ino, true, false, false⟩] else [] := hM
      subst hM
      unfold Changed
      by_cases hx : c.atime = true ∧ 0 < len ∧ s.v.readOnly = false
      · rw [if_pos hx]
        simp [Accessed, Modified, hx, eq_comm (a := i)]
      · rw [if_neg hx]
        have : Accessed c s.v.readOnly i (.read ino start len) r ↔ False := ⟨fun ⟨a, b, _, d⟩ => hx ⟨a, d, b⟩, False.elim⟩
        rw [this]
        simp [Modified]
    | dirRead p pos =>
      cases r with
      | entry n x =>
        have hM : L = if c.atime = true ∧ s.v.readOnly = false ∧ x.isSome = true then [⟨p, true, false, false⟩] else [] := hM
        subst hM
        unfold Changed
        rcases x with _ | x
        · simp [Accessed, Modified]
        · by_cases hx : c.atime = true ∧ s.v.readOnly = false
          · rw [if_pos ⟨hx.1, hx.2, rfl⟩]
            simp [Accessed, Modified, hx, eq_comm (a := i)]
          · rw [if_neg (fun h => hx ⟨h.1, h.2.1⟩)]
            have : Accessed c s.v.readOnly i (.dirRead p pos) (.entry n (some x)) ↔ False := ⟨fun ⟨a, b, _⟩ => hx ⟨a, b⟩, False.elim⟩
            rw [this]
            simp [Modified]
      | _ => exact hM.elim
    | rollback => exact hp.elim
    | mount ro => exact hp.elim
    | unmount => exact hp.elim
    | _ =>
      have hM : L = [] := hM
      subst hM
      unfold Changed
      simp [Accessed, Modified]
  exact ⟨taken_of (fld := Stamp.a) (bit := Mark.a) hts (fun _ _ _ => rfl) hS (last (new fun _ => rfl) key.1),
    taken_of (fld := Stamp.m) (bit := Mark.m) hts (fun _ _ _ => rfl) hS (last (new fun _ => rfl) key.2.1),
    taken_of (fld := Stamp.c) (bit := Mark.ch) hts (fun _ _ _ => rfl) hS (last (new fun _ => rfl) key.2.2)⟩

end RedFs.Times
