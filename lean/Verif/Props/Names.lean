import Verif.Props.Files
set_option linter.unusedSimpArgs false
set_option linter.unusedVariables false
/-!
Names and directories, over every history of calls (C19-C24).
-/
namespace RedFs.Props.Names
open RedFs RedFs.Props.System RedFs.Props.Account RedFs.Props.Files
open M Vol Spec

variable {c : Conf} {v v' w : Vol} {r : Except Err Reply} {k : Call}

/-- What a call that succeeds does to the files. -/
def OkRel (c : Conf) (k : Call) (F : RedFs.Files) (r : Except Err Reply) (F' : RedFs.Files) : Prop :=
  match k with
  | .create p name isDir => ∃ i, r = .ok (.num i) ∧ Create c p (nameOf c name) isDir F (.ok i) F'
  | .link p name ino => r = .ok .unit ∧ Link c p (nameOf c name) ino F (.ok ()) F'
  | .unlink p name => r = .ok .unit ∧ Unlink c p (nameOf c name) F (.ok ()) F'
  | .rename p name p' name' => r = .ok .unit ∧ Rename c p (nameOf c name) p' (nameOf c name') F (.ok ()) F'
  | .write ino start len buf => ∃ n, r = .ok (.num n) ∧ Write c ino start len buf F (.ok n) F'
  | .truncate ino size => r = .ok .unit ∧ Truncate c ino size F (.ok ()) F'
  | _ => False

/-- Every call either leaves all files as they are, or succeeds and does what is specified. -/
theorem call_rel (hc : c.SysOk) (h : Reach c v) (hm : v.mounted = true) (hk : k.Ok c) (hf : Forward k) (he : exec c k v = (r, v')) :
    v'.mounted = true ∧ ((files c v' = files c v ∧ (k.event = none ∨ ∃ e, r = .error e)) ∨ OkRel c k (files c v) r (files c v')) := by
  obtain ⟨r', v'', s', tr, e', d, a, _⟩ := exec_sim hc (Reach.sysOf hc h hm) hk
  rw [he] at e'; obtain ⟨rfl, rfl⟩ := Prod.mk.inj e'
  have hs' : s'.mounted = true := (d.mounted hf.2 (Or.inl rfl)).trans rfl
  obtain ⟨_, hnow, _⟩ := a.inv hs'
  refine ⟨by rw [← a.mounted_iff]; exact hs', ?_⟩
  have mod : ∀ {ev : Event} {α : Type} {g : α → Reply} {R : RedFs.Files → Except Err α → RedFs.Files → Prop}, Modify ev (Via g R) (sysOf c v) r s' tr →
      (files c v' = files c v ∧ ∃ e, r = .error e) ∨ ∃ r0 : Except Err α, r = r0.map g ∧ R (files c v) r0 (files c v') := by
    intro ev α g R q
    cases hro : v.readOnly
    · right; rw [← hnow]; exact modify_rel q hro
    · left
      unfold Modify at q
      rw [if_neg (show ¬ (sysOf c v).mounted = false from fun h => by cases h), if_pos (show (sysOf c v).ro = true from hro)] at q
      exact ⟨by rw [← hnow, q.2.1]; rfl, _, q.1⟩
  cases k with
  | write i start len buf =>
    rcases mod d with ⟨h1, e, h2⟩ | ⟨e | n, h1, h2⟩
    · exact Or.inl ⟨h1, Or.inr ⟨e, h2⟩⟩
    · exact Or.inl ⟨h2.1, Or.inr ⟨e, h1⟩⟩
    · exact Or.inr ⟨n, h1, h2⟩
  | truncate i size =>
    rcases mod d with ⟨h1, e, h2⟩ | ⟨e | n, h1, h2⟩
    · exact Or.inl ⟨h1, Or.inr ⟨e, h2⟩⟩
    · exact Or.inl ⟨h2.1, Or.inr ⟨e, h1⟩⟩
    · exact Or.inr ⟨h1, h2⟩
  | create p name isDir =>
    rcases mod d with ⟨h1, e, h2⟩ | ⟨e | n, h1, h2⟩
    · exact Or.inl ⟨h1, Or.inr ⟨e, h2⟩⟩
    · exact Or.inl ⟨h2.1, Or.inr ⟨e, h1⟩⟩
    · exact Or.inr ⟨n, h1, h2⟩
  | link p name i =>
    rcases mod d with ⟨h1, e, h2⟩ | ⟨e | n, h1, h2⟩
    · exact Or.inl ⟨h1, Or.inr ⟨e, h2⟩⟩
    · exact Or.inl ⟨h2.1, Or.inr ⟨e, h1⟩⟩
    · exact Or.inr ⟨h1, h2⟩
  | unlink p name =>
    rcases mod d with ⟨h1, e, h2⟩ | ⟨e | n, h1, h2⟩
    · exact Or.inl ⟨h1, Or.inr ⟨e, h2⟩⟩
    · exact Or.inl ⟨h2.1, Or.inr ⟨e, h1⟩⟩
    · exact Or.inr ⟨h1, h2⟩
  | rename p name p' name' =>
    rcases mod d with ⟨h1, e, h2⟩ | ⟨e | n, h1, h2⟩
    · exact Or.inl ⟨h1, Or.inr ⟨e, h2⟩⟩
    · exact Or.inl ⟨h2.1, Or.inr ⟨e, h1⟩⟩
    · exact Or.inr ⟨h1, h2⟩
  | rollback => exact absurd rfl hf.1
  | unmount => exact absurd rfl hf.2
  | maskSet mask =>
    refine Or.inl ⟨?_, Or.inl rfl⟩
    have d := d.2
    split at d
    · rw [← hnow, d.2]; rfl
    · split at d <;> (rw [← hnow, d.2]; rfl)
  | transact =>
    refine Or.inl ⟨?_, Or.inl rfl⟩
    simp only [Spec.Does] at d
    rw [if_neg (show ¬ (sysOf c v).mounted = false from fun h => by cases h)] at d
    split at d
    · rw [← hnow, d.2.1]; rfl
    · rw [← hnow, d.2.2]; rfl
  | mount ro =>
    refine Or.inl ⟨?_, Or.inl rfl⟩
    have d := d.2
    rw [if_pos (show (sysOf c v).mounted = true from rfl)] at d
    rw [← hnow, d.1]; rfl
  | _ => exact Or.inl ⟨by rw [← hnow, d.1]; rfl, Or.inl rfl⟩

/-- The names of a reachable POSIX volume form a sound tree. -/
theorem Reach.ns (hc : c.SysOk) (hp : c.posix = true) (h : Reach c v) (hm : v.mounted = true) : NsOk c (files c v) := by
  have := (Reach.up hc h hm).now
  rw [Sound.posix hp] at this
  exact this

/-! ### C19 -/

/-- The names in directories: directory and name to inode. -/
abbrev NameMap := Nat → List Byte → Option Nat
def NameMap.set (m : NameMap) (p : Nat) (s : List Byte) (o : Option Nat) : NameMap := fun p' s' => if p' = p ∧ s' = s then o else m p' s'
/-- `m` are the names of the files `F`. -/
def IsNames (c : Conf) (F : RedFs.Files) (m : NameMap) : Prop := ∀ p s i, m p s = some i ↔ Has c F p s i

/-- What a call does to the names.  Only successful calls of four kinds do anything. -/
def rebind (c : Conf) (m : NameMap) : Files.Done → NameMap
  | (.create p name _, .ok (.num i)) => m.set p (nameOf c name) (some i)
  | (.link p name i, .ok _) => m.set p (nameOf c name) (some i)
  | (.unlink p name, .ok _) => m.set p (nameOf c name) none
  | (.rename p name p' name', .ok _) =>
      -- renaming a name to another name of the same file does nothing
      if m p (nameOf c name) = m p' (nameOf c name') then m
      else (m.set p (nameOf c name) none).set p' (nameOf c name') (m p (nameOf c name))
  | _ => m

theorem rebind_error {m : NameMap} {e : Err} : rebind c m (k, .error e) = m := by
  unfold rebind; split <;> first | rfl | (next hh => cases (Prod.mk.inj hh).2)

theorem has_bound {F F' : RedFs.Files} {ch : List (Nat × List Byte × Option Nat)} (b : Bound c F F' ch) {p : Nat} {s : List Byte}
    (hn : ∀ x ∈ ch, ¬ (x.1 = p ∧ x.2.1 = s)) (j : Nat) : Has c F' p s j ↔ Has c F p s j := by
  constructor
  · rintro ⟨k, hk⟩; exact ⟨k, (b.other p s hn k j).1 hk⟩
  · rintro ⟨k, hk⟩; exact ⟨k, (b.other p s hn k j).2 hk⟩

theorem isNames_set {F F' : RedFs.Files} {m : NameMap} {p : Nat} {s : List Byte} {o : Option Nat} (b : Bound c F F' [(p, s, o)]) (h : IsNames c F m) :
    IsNames c F' (m.set p s o) := by
  intro p' s' i
  unfold NameMap.set
  by_cases hx : p' = p ∧ s' = s
  · rw [if_pos hx]
    obtain ⟨rfl, rfl⟩ := hx
    exact (b.touched _ (List.mem_singleton.2 rfl) i).symm
  · rw [if_neg hx, h p' s' i]
    refine (has_bound b ?_ i).symm
    intro x hx1 hx2
    rw [List.mem_singleton] at hx1; subst hx1
    exact hx ⟨hx2.1.symm, hx2.2.symm⟩

theorem write_names (hp : c.posix = true) (hc : c.SysOk) (h : Reach c v) (hm : v.mounted = true) {F' : RedFs.Files} {i : Nat} {f f' : AFile} (hf : IsReg (files c v) i f) (hf' : f'.mode = f.mode)
    (hF : F' = RedFs.Files.set (files c v) i (some f')) {m : NameMap} (hn : IsNames c (files c v) m) : IsNames c F' m := by
  intro p s j
  rw [hn p s j]
  have : ∀ k, entOf c F' p k = entOf c (files c v) p k := by
    intro k
    by_cases hpi : p = i
    · subst hpi
      rw [entOf_reg hf, entOf_reg (F := F') (f := f') ⟨by rw [hF, RedFs.Files.set_same], by rw [hf', hf.2]⟩]
    · exact entOf_congr (by rw [hF, RedFs.Files.set_other _ _ hpi]) k
  unfold Has
  simp only [this]

/-- **C19** (one call) -/
theorem names_step (hc : c.SysOk) (hp : c.posix = true) (h : Reach c v) (hm : v.mounted = true) (hk : k.Ok c) (hf : Forward k) (he : exec c k v = (r, v'))
    {m : NameMap} (hn : IsNames c (files c v) m) : IsNames c (files c v') (rebind c m (k, r)) := by
  obtain ⟨_, ⟨h1, h2⟩ | h1⟩ := call_rel hc h hm hk hf he
  · rw [h1]
    rcases h2 with h2 | ⟨e, rfl⟩
    · have : rebind c m (k, r) = m := by
        cases k <;> first | rfl | (simp only [Call.event] at h2; cases h2)
      rw [this]; exact hn
    · rw [rebind_error]; exact hn
  · cases k with
    | create p name isDir =>
      obtain ⟨i, rfl, _, _, _, _, _, _, _, _, hb⟩ := h1
      exact isNames_set hb hn
    | link p name i =>
      obtain ⟨rfl, _, _, f, _, _, _, _, _, hb⟩ := h1
      exact isNames_set hb hn
    | unlink p name =>
      obtain ⟨rfl, i, f, _, _, _, _, _, _, hb⟩ := h1
      exact isNames_set hb hn
    | rename p name p' name' =>
      obtain ⟨rfl, ⟨h1, _, i, h2, h3⟩ | ⟨i, f, h2, h3, _, _, _, _, _, _, _, hb, h4⟩⟩ := h1
      · rw [h1]
        show IsNames c _ (if _ then _ else _)
        rw [if_pos]
        · exact hn
        · rw [(hn _ _ _).2 h2, (hn _ _ _).2 h3]
      · show IsNames c _ (if _ then _ else _)
        have e1 : m p (nameOf c name) = some i := (hn _ _ _).2 h2
        have hne : m p (nameOf c name) ≠ m p' (nameOf c name') := by
          intro heq
          rw [e1] at heq
          have h5 := (hn _ _ _).1 heq.symm
          rcases h4 with ⟨h4, _⟩ | ⟨j, g, _, h4, _, h6, _⟩
          · exact h4 i h5
          · have := (hn _ _ _).2 h4
            rw [← heq] at this; injection this with this
            exact h6 this.symm
        rw [if_neg hne, e1]
        intro q s j
        unfold NameMap.set
        by_cases h5 : q = p' ∧ s = nameOf c name'
        · rw [if_pos h5]
          obtain ⟨rfl, rfl⟩ := h5
          exact (hb.touched (q, nameOf c name', some i) (List.mem_cons_of_mem _ (List.mem_singleton.2 rfl)) j).symm
        · rw [if_neg h5]
          by_cases h6 : q = p ∧ s = nameOf c name
          · rw [if_pos h6]
            obtain ⟨rfl, rfl⟩ := h6
            exact (hb.touched (q, nameOf c name, none) (List.mem_cons_self ..) j).symm
          · rw [if_neg h6, hn q s j]
            refine (has_bound hb ?_ j).symm
            intro x hx1 hx2
            rcases List.mem_cons.1 hx1 with rfl | hx1
            · exact h6 ⟨hx2.1.symm, hx2.2.symm⟩
            · rw [List.mem_singleton] at hx1; subst hx1
              exact h5 ⟨hx2.1.symm, hx2.2.symm⟩
    | write ino start len buf =>
      obtain ⟨n, rfl, f, h1, _, _, _, h2⟩ := h1
      refine write_names hp hc h hm h1 ?_ h2 hn
      unfold AFile.put AFile.write; split <;> rfl
    | truncate ino size =>
      obtain ⟨rfl, f, h1, _, h2⟩ := h1
      exact write_names hp hc h hm h1 (f' := f.truncate size) rfl h2 hn
    | _ => exact h1.elim

/-- **C19** The directories of a reachable volume are a map: a name in a directory refers to one inode. -/
theorem C19_is_map (hc : c.SysOk) (hp : c.posix = true) (h : Reach c v) (hm : v.mounted = true) : ∃ m, IsNames c (files c v) m := by
  classical
  have ns := Reach.ns hc hp h hm
  have uniq : ∀ p s i j, Has c (files c v) p s i → Has c (files c v) p s j → i = j := by
    rintro p s i j ⟨k, hk⟩ ⟨k', hk'⟩
    have : ∃ f, IsDir (files c v) p f := by
      unfold entOf at hk
      cases hf : files c v p with
      | none => rw [hf] at hk; cases hk
      | some f =>
        rw [hf] at hk
        by_cases hd : f.mode = modeDir
        · exact ⟨f, hf, hd⟩
        · dsimp only at hk; rw [if_neg hd] at hk; cases hk
    obtain ⟨f, hd⟩ := this
    have ok := (ns.dirs p f hd).2
    rw [entOf_dir hd] at hk hk'
    have := ok.uniq k k' i j s hk hk'
    subst this
    rw [hk] at hk'; injection hk' with hk'; injection hk'
  refine ⟨fun p s => if hx : ∃ i, Has c (files c v) p s i then some hx.choose else none, fun p s i => ?_⟩
  by_cases hx : ∃ i, Has c (files c v) p s i
  · simp only [dif_pos hx]
    constructor
    · intro he; injection he with he; rw [← he]; exact hx.choose_spec
    · intro hh; rw [uniq p s _ _ hh hx.choose_spec]
  · simp only [dif_neg hx]
    exact ⟨fun h => (by cases h), fun h => absurd ⟨i, h⟩ hx⟩

/-- **C19** After any sequence of calls the names are those which the history of the calls says. -/
theorem C19_names (hc : c.SysOk) (hp : c.posix = true) {ks : List Call} (hk : ∀ k ∈ ks, k.Ok c ∧ Forward k) (h : Reach c v) (hm : v.mounted = true)
    {m : NameMap} (hn : IsNames c (files c v) m) :
    (runCalls c ks v).2.mounted = true ∧ IsNames c (files c (runCalls c ks v).2) ((history c ks v).foldl (rebind c) m) := by
  induction ks generalizing v m with
  | nil => exact ⟨hm, hn⟩
  | cons k ks ih =>
    obtain ⟨hk1, hk2⟩ := hk k (List.mem_cons_self ..)
    have hm1 := (call_rel hc h hm hk1 hk2 (exec_eta c k v)).1
    have hn1 := names_step hc hp h hm hk1 hk2 (exec_eta c k v) hn
    have hr1 := h.call hk1 (exec_eta c k v)
    exact ih (fun k' hk' => hk k' (List.mem_cons_of_mem _ hk')) hr1 hm1 hn1

theorem ask_rel (hc : c.SysOk) (h : Reach c v) (hm : v.mounted = true) (hk : k.Ok c) {α : Type} {g : α → Reply} {Q : RedFs.Files → Except Err α → Prop}
    (hd : ∀ s r s' tr, Does c k s r s' tr → Ask (ViaQ g Q) s r s' tr) (he : exec c k v = (r, v')) : ViaQ g Q (files c v) r := by
  obtain ⟨r', v'', s', tr, e', d, a, _⟩ := exec_sim hc (Reach.sysOf hc h hm) hk
  rw [he] at e'; obtain ⟨rfl, rfl⟩ := Prod.mk.inj e'
  have d := (hd _ _ _ _ d).2.2
  rw [if_neg (show ¬ (sysOf c v).mounted = false from fun h => by cases h)] at d
  exact d

/-- **C19** Lookup answers by that map: the inode to which the name refers, or ENOENT. -/
theorem C19_lookup (hc : c.SysOk) (hp : c.posix = true) (h : Reach c v) (hm : v.mounted = true) {m : NameMap} (hn : IsNames c (files c v) m)
    {p : Nat} {name : List Byte} (hs : Str.CStr.Ok name) (hd : ∃ f, IsDir (files c v) p f) (h1 : 1 ≤ (nameOf c name).length) (h2 : (nameOf c name).length ≤ c.nameMax) :
    (exec c (.lookup p name) v).1 = match m p (nameOf c name) with | some i => .ok (.num i) | none => .error .enoent := by
  obtain ⟨r0, h3, h4⟩ := ask_rel hc h hm (k := .lookup p name) ⟨hp, hs⟩ (fun _ _ _ _ h => h) (exec_eta ..)
  rw [h3]
  rcases r0 with e | i
  · rcases h4 with h4 | ⟨_, (⟨h4, _⟩ | ⟨h4, _⟩) | ⟨_, _, rfl, h4⟩⟩
    · obtain ⟨f, hd⟩ := hd
      rcases h4 with ⟨_, h4⟩ | ⟨_, g, h4⟩
      · rw [hd.1] at h4; cases h4
      · have := h4.1; rw [hd.1] at this; injection this with this; subst this
        have := h4.2; rw [hd.2] at this; cases this
    · omega
    · omega
    · have : m p (nameOf c name) = none := by
        cases hx : m p (nameOf c name) with
        | none => rfl
        | some j => exact absurd ((hn _ _ _).1 hx) (h4 j)
      rw [this]; rfl
  · rw [(hn _ _ _).2 h4]; rfl


/-! ### C20 -/

/-- Reading the directory `p` from position `pos` to the end, each call going on where the last one stopped,
gives the names and inodes `l`. -/
inductive Listing (c : Conf) (p : Nat) : Nat → Vol → List (List Byte × Nat) → Prop
  | done {pos pos' : Nat} {v v' : Vol} : exec c (.dirRead p pos) v = (.ok (.entry pos' none), v') → Listing c p pos v []
  | next {pos pos' : Nat} {v v' : Vol} {s : List Byte} {i : Nat} {l : List (List Byte × Nat)} :
      exec c (.dirRead p pos) v = (.ok (.entry pos' (some (s, i))), v') → Listing c p pos' v' l → Listing c p pos v ((s, i) :: l)

theorem Listing.unique {p pos : Nat} {l l' : List (List Byte × Nat)} (h : Listing c p pos v l) (h' : Listing c p pos v l') : l = l' := by
  induction h generalizing l' with
  | done e =>
    cases h' with
    | done e' => rfl
    | next e' => rw [e] at e'; injection e' with e1 _; injection e1 with e1; injection e1 with _ e1; cases e1
  | next e _ ih =>
    cases h' with
    | done e' => rw [e] at e'; injection e' with e1 _; injection e1 with e1; injection e1 with _ e1; cases e1
    | next e' h' =>
      rw [e] at e'; injection e' with e1 e2; injection e1 with e1; injection e1 with e3 e1; injection e1 with e1; injection e1 with e1 e4
      subst e2 e3 e1 e4
      rw [ih h']

theorem isDir_of_ent {F : RedFs.Files} {p k : Nat} {x : Nat × List Byte} (h : entOf c F p k = some x) : ∃ f, IsDir F p f := by
  unfold entOf at h
  cases hf : F p with
  | none => rw [hf] at h; cases h
  | some f =>
    rw [hf] at h
    by_cases hd : f.mode = modeDir
    · exact ⟨f, hf, hd⟩
    · dsimp only at h; rw [if_neg hd] at h; cases h

theorem dirRead_rel (hc : c.SysOk) (hp : c.posix = true) (h : Reach c v) (hm : v.mounted = true) {p pos : Nat} (hd : ∃ f, IsDir (files c v) p f) :
    ∃ pos' o v', exec c (.dirRead p pos) v = (.ok (.entry pos' o), v') ∧ DirRead c p pos (files c v) (.ok (pos', o)) ∧
      files c v' = files c v ∧ v'.mounted = true ∧ Reach c v' := by
  have hk : (Call.dirRead p pos).Ok c := hp
  have he := exec_eta c (.dirRead p pos) v
  obtain ⟨r0, h3, h4⟩ := ask_rel hc h hm hk (fun _ _ _ _ h => h) he
  obtain ⟨h5, h6⟩ := call_rel hc h hm hk ⟨fun hh => (by cases hh), fun hh => (by cases hh)⟩ he
  have h7 := h.call hk he
  generalize exec c (.dirRead p pos) v = x at *
  obtain ⟨r, v'⟩ := x
  rcases r0 with e | ⟨pos', o⟩
  · obtain ⟨f, hd⟩ := hd
    rcases h4 with ⟨_, h4⟩ | ⟨_, g, h4⟩
    · rw [hd.1] at h4; cases h4
    · have := h4.1; rw [hd.1] at this; injection this with this; subst this
      have := h4.2; rw [hd.2] at this; cases this
  · refine ⟨pos', o, v', ?_, h4, ?_, h5, h7⟩
    · dsimp only at h3; rw [h3]; rfl
    · rcases h6 with ⟨h6, _⟩ | h6
      · exact h6
      · exact h6.elim

theorem listing_from (hc : c.SysOk) (hp : c.posix = true) {p : Nat} {F : RedFs.Files} {N : Nat} (hN : ∀ k, N ≤ k → entOf c F p k = none) (hd : ∃ f, IsDir F p f) :
    ∀ (d pos : Nat) (v : Vol), N - pos ≤ d → Reach c v → v.mounted = true → files c v = F →
      ∃ l, Listing c p pos v l ∧ ∃ ks : List Nat, ks.Pairwise (· < ·) ∧ (∀ k, k ∈ ks ↔ pos ≤ k ∧ entOf c F p k ≠ none) ∧
        l.map (fun x => some (x.2, x.1)) = ks.map (entOf c F p) := by
  intro d
  induction d with
  | zero =>
    intro pos v h1 h2 h3 h4
    subst h4
    obtain ⟨pos', o, v', e, h5, _⟩ := dirRead_rel hc hp h2 h3 hd (pos := pos)
    rcases o with _ | ⟨s, i⟩
    · refine ⟨[], .done e, [], List.Pairwise.nil, fun k => ⟨fun h => (by cases h), fun ⟨ha, hb⟩ => absurd (h5.2.1 k ha) hb⟩, rfl⟩
    · obtain ⟨k, ha, hb, _⟩ := h5
      rw [hN k (by omega)] at hb; cases hb
  | succ d ih =>
    intro pos v h1 h2 h3 h4
    subst h4
    obtain ⟨pos', o, v', e, h5, h6, h7, h8⟩ := dirRead_rel hc hp h2 h3 hd (pos := pos)
    rcases o with _ | ⟨s, i⟩
    · refine ⟨[], .done e, [], List.Pairwise.nil, fun k => ⟨fun h => (by cases h), fun ⟨ha, hb⟩ => absurd (h5.2.1 k ha) hb⟩, rfl⟩
    · obtain ⟨k, ha, hb, hcn, rfl⟩ := h5
      have hkN : k < N := by
        by_contra hx
        rw [hN k (by omega)] at hb; cases hb
      obtain ⟨l, hl, ks, k1, k2, k3⟩ := ih (k + 1) v' (by omega) h8 h7 h6
      refine ⟨(s, i) :: l, .next e hl, k :: ks, ?_, ?_, ?_⟩
      · refine List.Pairwise.cons ?_ k1
        intro j hj
        have := ((k2 j).1 hj).1
        omega
      · intro j
        rw [List.mem_cons, k2]
        constructor
        · rintro (rfl | ⟨h9, h10⟩)
          · exact ⟨ha, by rw [hb]; simp⟩
          · exact ⟨by omega, h10⟩
        · rintro ⟨h9, h10⟩
          by_cases hjk : j = k
          · exact Or.inl hjk
          · right
            refine ⟨?_, h10⟩
            by_contra hx
            exact h10 (hcn j h9 (by omega))
      · rw [List.map_cons, List.map_cons, k3, hb]

/-- **C20** Reading a directory from the beginning gives each of its entries exactly once, and then ends. -/
theorem C20_readdir (hc : c.SysOk) (hp : c.posix = true) (h : Reach c v) (hm : v.mounted = true) {p : Nat} (hd : ∃ f, IsDir (files c v) p f) :
    ∃ l, Listing c p 0 v l ∧ (l.map (·.1)).Nodup ∧ ∀ s i, (s, i) ∈ l ↔ Has c (files c v) p s i := by
  obtain ⟨f, hf⟩ := hd
  have ok := ((Reach.ns hc hp h hm).dirs p f hf).2
  have hN : ∀ k, (dirOf c f).n ≤ k → entOf c (files c v) p k = none := fun k hk => by rw [entOf_dir hf]; exact ok.out k hk
  obtain ⟨l, hl, ks, k1, k2, k3⟩ := listing_from hc hp hN ⟨f, hf⟩ _ 0 v (Nat.le_refl _) h hm rfl
  have memiff : ∀ s i, (s, i) ∈ l ↔ Has c (files c v) p s i := by
    intro s i
    constructor
    · intro hx
      have : some (i, s) ∈ ks.map (entOf c (files c v) p) := by rw [← k3]; exact List.mem_map.2 ⟨(s, i), hx, rfl⟩
      obtain ⟨k, _, hk⟩ := List.mem_map.1 this
      exact ⟨k, hk⟩
    · rintro ⟨k, hk⟩
      have : some (i, s) ∈ l.map (fun x => some (x.2, x.1)) := by
        rw [k3]; exact List.mem_map.2 ⟨k, (k2 k).2 ⟨Nat.zero_le _, by rw [hk]; simp⟩, hk⟩
      obtain ⟨⟨s', i'⟩, hx, hy⟩ := List.mem_map.1 this
      injection hy with hy; injection hy with hy1 hy2
      dsimp only at hy1 hy2
      subst hy1 hy2; exact hx
  refine ⟨l, hl, ?_, memiff⟩
  -- the names are distinct since the entry numbers are
  have e1 : (l.map (·.1)).map some = ks.map (fun k => (entOf c (files c v) p k).map (·.2)) := by
    have := congrArg (List.map (Option.map (fun x : Nat × List Byte => x.2))) k3
    rw [List.map_map, List.map_map] at this
    rw [List.map_map]
    exact this
  have : ((l.map (·.1)).map some).Nodup := by
    rw [e1]
    unfold List.Nodup
    rw [List.pairwise_map]
    refine k1.imp_of_mem ?_
    intro a b ha hb hab heq
    have ha' := ((k2 a).1 ha).2
    have hb' := ((k2 b).1 hb).2
    cases ea : entOf c (files c v) p a with
    | none => exact ha' ea
    | some x =>
      cases eb : entOf c (files c v) p b with
      | none => exact hb' eb
      | some y =>
        obtain ⟨i, s⟩ := x
        obtain ⟨j, t⟩ := y
        rw [ea, eb] at heq
        have hst : s = t := by injection heq
        subst hst
        rw [entOf_dir hf] at ea eb
        have := ok.uniq a b i j s ea eb
        omega
  exact List.Nodup.of_map _ this

/-! ### C21 -/

/-- **C21** Every name in a directory of a reachable volume is legal: not empty, not too long, without zero
bytes and separators, and not "." or ".."; and it refers to a valid inode number. -/
theorem C21_legal (hc : c.SysOk) (hp : c.posix = true) (h : Reach c v) (hm : v.mounted = true) {p i : Nat} {s : List Byte} (hh : Has c (files c v) p s i) :
    (1 ≤ s.length ∧ s.length ≤ c.nameMax ∧ (∀ b ∈ s, b ≠ 0 ∧ b ≠ c.sep) ∧ s ≠ [46#8] ∧ s ≠ [46#8, 46#8]) ∧ c.inodeValid i = true := by
  obtain ⟨k, hk⟩ := hh
  obtain ⟨f, hd⟩ := isDir_of_ent hk
  have ok := ((Reach.ns hc hp h hm).dirs p f hd).2
  rw [entOf_dir hd] at hk
  have n := ok.name k i s hk
  exact ⟨⟨n.pos, n.max, fun b hb => ⟨n.nul b hb, n.sep b hb⟩, n.dot, n.dotdot⟩, ok.ino k i s hk⟩

/-- **C21** No two entries of a directory have the same name. -/
theorem C21_unique (hc : c.SysOk) (hp : c.posix = true) (h : Reach c v) (hm : v.mounted = true) {p i j k k' : Nat} {s : List Byte}
    (h1 : entOf c (files c v) p k = some (i, s)) (h2 : entOf c (files c v) p k' = some (j, s)) : k = k' := by
  obtain ⟨f, hd⟩ := isDir_of_ent h1
  have ok := ((Reach.ns hc hp h hm).dirs p f hd).2
  rw [entOf_dir hd] at h1 h2
  exact ok.uniq k k' i j s h1 h2

/-- **C21** Creating, linking and renaming to a name that is not legal, or that exists, fails. -/
theorem C21_rejected (hc : c.SysOk) (h : Reach c v) (hm : v.mounted = true) {p : Nat} {name : List Byte}
    (hk : (∃ d, k = .create p name d) ∨ ∃ i, k = .link p name i) (hok : k.Ok c) (he : exec c k v = (r, v'))
    (hb : ¬ NameOk c (nameOf c name) ∨ ∃ j, Has c (files c v) p (nameOf c name) j) : ∃ e, r = .error e := by
  have hf : Forward k := by
    rcases hk with ⟨d, rfl⟩ | ⟨i, rfl⟩ <;> exact ⟨fun hh => (by cases hh), fun hh => (by cases hh)⟩
  obtain ⟨_, ⟨_, h1 | h1⟩ | h1⟩ := call_rel hc h hm hok hf he
  · rcases hk with ⟨d, rfl⟩ | ⟨i, rfl⟩ <;> cases h1
  · exact h1
  · exfalso
    rcases hk with ⟨d, rfl⟩ | ⟨i, rfl⟩
    · obtain ⟨i, _, h1, h2, _⟩ := h1
      exact hb.elim (fun hx => hx h1) fun ⟨j, hx⟩ => h2 j hx
    · obtain ⟨_, h1, h2, _⟩ := h1
      exact hb.elim (fun hx => hx h1) fun ⟨j, hx⟩ => h2 j hx

/-! ### C22 -/

/-- The directory in which directory `x` is, as the API reports it. -/
def parentOf (c : Conf) (v : Vol) (x : Nat) : Option Nat := match (exec c (.dirParent x) v).1 with | .ok (.num n) => some n | _ => none
/-- `n` times the parent. -/
def ancestor (c : Conf) (v : Vol) : Nat → Nat → Option Nat
  | 0, x => some x
  | n + 1, x => (parentOf c v x).bind (ancestor c v n)

theorem parentOf_dir (hc : c.SysOk) (hp : c.posix = true) (h : Reach c v) (hm : v.mounted = true) {x : Nat} {f : AFile} (hd : IsDir (files c v) x f) :
    parentOf c v x = some f.parent := by
  obtain ⟨r0, h3, h4⟩ := ask_rel hc h hm (k := .dirParent x) hp (fun _ _ _ _ h => h) (exec_eta ..)
  unfold parentOf
  rw [h3]
  rcases r0 with e | n
  · rcases h4 with ⟨_, h4⟩ | ⟨_, g, h4⟩
    · rw [hd.1] at h4; cases h4
    · have := h4.1; rw [hd.1] at this; injection this with this; subst this
      have := h4.2; rw [hd.2] at this; cases this
  · obtain ⟨g, h4, h5⟩ := h4
    have := h4.1; rw [hd.1] at this; injection this with this; subst this
    show some n = _
    rw [h5]

theorem node_dir {F : RedFs.Files} {x : Nat} {nd : Node} (h : (graphOf c F).node x = some nd) (hd : nd.dir = true) : ∃ f, IsDir F x f ∧ f.parent = nd.parent ∧ f.nlink = nd.nlink := by
  obtain ⟨f, hf, rfl⟩ := node_some h
  exact ⟨f, ⟨hf, of_decide_eq_true hd⟩, rfl, rfl⟩
theorem dir_node {F : RedFs.Files} {x : Nat} {f : AFile} (h : IsDir F x f) : (graphOf c F).node x = some ⟨true, f.nlink, f.parent⟩ := by
  show (F x).map _ = _
  rw [h.1, Option.map_some, decide_eq_true h.2]

/-- **C22** From every directory of a reachable volume the root (inode 2) is reached by going from parent to parent. -/
theorem C22_connected (hc : c.SysOk) (hp : c.posix = true) (h : Reach c v) (hm : v.mounted = true) {x : Nat} (hd : ∃ f, IsDir (files c v) x f) :
    ∃ n, ancestor c v n x = some 2 := by
  have g := (Reach.ns hc hp h hm).graph
  obtain ⟨f, hd⟩ := hd
  obtain ⟨n, hn⟩ := g.tree x _ (dir_node hd) rfl
  refine ⟨n, ?_⟩
  clear hd
  induction hn with
  | root => rfl
  | step h1 h2 h3 _ ih =>
    obtain ⟨f, hf, hfp, _⟩ := node_dir h2 h3
    show (parentOf c v _).bind _ = _
    rw [parentOf_dir hc hp h hm hf, hfp]
    exact ih

theorem depth_unique {G : Graph} {x n m : Nat} (h : G.Depth x n) (h' : G.Depth x m) : n = m := by
  induction h generalizing m with
  | root => cases h' with
    | root => rfl
    | step h1 => exact absurd rfl h1
  | step h1 h2 _ _ ih => cases h' with
    | root => exact absurd rfl h1
    | step h3 h4 _ h5 =>
      rw [h2] at h4; injection h4 with h4; subst h4
      rw [ih h5]

/-- **C22** No directory is its own ancestor. -/
theorem C22_acyclic (hc : c.SysOk) (hp : c.posix = true) (h : Reach c v) (hm : v.mounted = true) {x n : Nat} (hd : ∃ f, IsDir (files c v) x f) :
    ancestor c v (n + 1) x ≠ some x := by
  have g := (Reach.ns hc hp h hm).graph
  -- the depth decreases by one with each step, and at the root there is no further step
  have key : ∀ n x y d, (graphOf c (files c v)).Depth x d → ancestor c v n x = some y → (∃ f, IsDir (files c v) y f) →
      ∃ d', (graphOf c (files c v)).Depth y d' ∧ d = d' + n := by
    intro n
    induction n with
    | zero =>
      intro x y d h1 h2 _
      injection h2 with h2; subst h2; exact ⟨d, h1, rfl⟩
    | succ n ih =>
      intro x y d h1 h2 h3
      cases h1 with
      | root =>
        exfalso
        obtain ⟨f0, hf0⟩ := node_some g.root
        have hd0 : IsDir (files c v) 2 f0 := ⟨hf0.1, by
          have := congrArg Node.dir hf0.2
          exact of_decide_eq_true this.symm⟩
        have hp0 : f0.parent = 0 := (congrArg Node.parent hf0.2).symm
        have e : ancestor c v (n + 1) 2 = (parentOf c v 2).bind (ancestor c v n) := rfl
        rw [e, parentOf_dir hc hp h hm hd0, hp0] at h2
        have hz : parentOf c v 0 = none := by
          obtain ⟨r0, h3, h4⟩ := ask_rel hc h hm (k := .dirParent 0) hp (fun _ _ _ _ h => h) (exec_eta ..)
          unfold parentOf; rw [h3]
          rcases r0 with e | n
          · rfl
          · obtain ⟨f, hf, _⟩ := h4
            have := dir_node (c := c) hf
            rw [node_zero (Reach.up hc h hm).wf] at this; cases this
        cases n with
        | zero =>
          injection h2 with h2; subst h2
          obtain ⟨f, hf⟩ := h3
          have := dir_node (c := c) hf
          rw [node_zero (Reach.up hc h hm).wf] at this; cases this
        | succ n =>
          have e : (some 0 : Option Nat).bind (ancestor c v (n + 1)) = (parentOf c v 0).bind (ancestor c v n) := rfl
          rw [e, hz] at h2; cases h2
      | step h4 h5 h6 h7 =>
        obtain ⟨f, hf, hfp, _⟩ := node_dir h5 h6
        have e : ancestor c v (n + 1) x = (parentOf c v x).bind (ancestor c v n) := rfl
        rw [e, parentOf_dir hc hp h hm hf, hfp] at h2
        obtain ⟨d', h8, h9⟩ := ih _ y _ h7 h2 h3
        exact ⟨d', h8, by omega⟩
  intro hx
  obtain ⟨f, hf⟩ := hd
  obtain ⟨d, hd⟩ := g.tree x _ (dir_node hf) rfl
  obtain ⟨d', h1, h2⟩ := key (n + 1) x x d hd hx ⟨f, hf⟩
  have := depth_unique hd h1
  omega

/-- The file `i` is found by looking up the names `path` one after the other, starting in directory `p`. -/
inductive Resolves (c : Conf) (F : RedFs.Files) : Nat → List (List Byte) → Nat → Prop
  | nil {p : Nat} : Resolves c F p [] p
  | cons {p i j : Nat} {s : List Byte} {path : List (List Byte)} : Has c F p s i → Resolves c F i path j → Resolves c F p (s :: path) j

theorem Resolves.snoc {F : RedFs.Files} {p i j : Nat} {s : List Byte} {path : List (List Byte)} (h : Resolves c F p path i) (hs : Has c F i s j) :
    Resolves c F p (path ++ [s]) j := by
  induction h with
  | nil => exact .cons hs .nil
  | cons h1 _ ih => exact .cons h1 (ih hs)

theorem has_name (hc : c.SysOk) (hp : c.posix = true) (h : Reach c v) (hm : v.mounted = true) {i : Nat} {f : AFile} (hf : files c v i = some f) (hi : i ≠ 2) :
    ∃ p s, Has c (files c v) p s i := by
  have g := (Reach.ns hc hp h hm).graph
  obtain ⟨⟨l, h1, h2, h3⟩, h4, _⟩ := g.nlink i ⟨decide (f.mode = modeDir), f.nlink, f.parent⟩ (by show (files c v i).map _ = _; rw [hf]; rfl) hi
  cases l with
  | nil => rw [← h3] at h4; cases h4
  | cons x l =>
    have := (h2 x).1 (List.mem_cons_self ..)
    obtain ⟨s, hs⟩ := slot_some.1 this
    exact ⟨x.1, s, x.2, hs⟩

/-- **C22** Nothing is detached: every file and directory of a reachable volume can be reached by a path from the root. -/
theorem C22_every_file_has_a_path (hc : c.SysOk) (hp : c.posix = true) (h : Reach c v) (hm : v.mounted = true) {i : Nat} {f : AFile} (hf : files c v i = some f) :
    ∃ path, Resolves c (files c v) 2 path i := by
  have g := (Reach.ns hc hp h hm).graph
  -- first for directories, by their depth
  have dirs : ∀ d x, (graphOf c (files c v)).Depth x d → ∃ path, Resolves c (files c v) 2 path x := by
    intro d x hd
    induction hd with
    | root => exact ⟨[], .nil⟩
    | step h1 h2 h3 _ ih =>
      obtain ⟨path, ih⟩ := ih
      obtain ⟨f, hf, hfp, _⟩ := node_dir h2 h3
      obtain ⟨p, s, k, hk⟩ := has_name hc hp h hm hf.1 h1
      have := g.parent p k _ _ (slot_some.2 ⟨s, hk⟩) h2 h3
      exact ⟨path ++ [s], ih.snoc (by rw [this]; exact ⟨k, hk⟩)⟩
  by_cases hi : i = 2
  · subst hi; exact ⟨[], .nil⟩
  obtain ⟨p, s, k, hk⟩ := has_name hc hp h hm hf hi
  obtain ⟨nd, h1, h2⟩ := g.from_ p k i (slot_some.2 ⟨s, hk⟩)
  obtain ⟨d, hd⟩ := g.tree p nd h1 h2
  obtain ⟨path, hpath⟩ := dirs d p hd
  exact ⟨path ++ [s], hpath.snoc ⟨k, hk⟩⟩

theorem below_ancestor (hc : c.SysOk) (hp : c.posix = true) (h : Reach c v) (hm : v.mounted = true) {i x : Nat} :
    (∃ n, ancestor c v n x = some i) → (∃ f, IsDir (files c v) x f) → (graphOf c (files c v)).Below i x := by
  rintro ⟨n, hn⟩ hd
  induction n generalizing x with
  | zero => injection hn with hn; subst hn; exact .refl
  | succ n ih =>
    obtain ⟨f, hd⟩ := hd
    have e : ancestor c v (n + 1) x = (parentOf c v x).bind (ancestor c v n) := rfl
    rw [e, parentOf_dir hc hp h hm hd] at hn
    refine .step (dir_node hd) rfl ?_
    by_cases hx : ∃ f', IsDir (files c v) f.parent f'
    · exact ih hn hx
    · cases n with
      | zero => injection hn with hn; rw [← hn]; exact .refl
      | succ n =>
        exfalso
        have e : (some f.parent : Option Nat).bind (ancestor c v (n + 1)) = (parentOf c v f.parent).bind (ancestor c v n) := rfl
        rw [e] at hn
        have : parentOf c v f.parent = none := by
          obtain ⟨r0, h3, h4⟩ := ask_rel hc h hm (k := .dirParent f.parent) hp (fun _ _ _ _ h => h) (exec_eta ..)
          unfold parentOf; rw [h3]
          rcases r0 with e | n
          · rfl
          · obtain ⟨g, hg, _⟩ := h4; exact absurd ⟨g, hg⟩ hx
        rw [this] at hn; cases hn

theorem rename_rel (hc : c.SysOk) (h : Reach c v) (hm : v.mounted = true) (hro : v.readOnly = false) {p p' : Nat} {name name' : List Byte}
    (hk : (Call.rename p name p' name').Ok c) (he : exec c (.rename p name p' name') v = (r, v')) :
    Via (fun _ => .unit) (Rename c p (nameOf c name) p' (nameOf c name')) (files c v) r (files c v') := by
  obtain ⟨r', v'', s', tr, e', d, a, _⟩ := exec_sim hc (Reach.sysOf hc h hm) hk
  rw [he] at e'; obtain ⟨rfl, rfl⟩ := Prod.mk.inj e'
  obtain ⟨_, h2, _⟩ := a.inv ((d.mounted (fun hh => by cases hh) (Or.inl rfl)).trans rfl)
  rw [← h2]; exact modify_rel d hro

theorem has_fun (hc : c.SysOk) (hp : c.posix = true) (h : Reach c v) (hm : v.mounted = true) {p i j : Nat} {s : List Byte}
    (h1 : Has c (files c v) p s i) (h2 : Has c (files c v) p s j) : i = j := by
  obtain ⟨m, hn⟩ := C19_is_map hc hp h hm
  have h1 := (hn _ _ _).2 h1
  rw [(hn _ _ _).2 h2] at h1
  injection h1 with h1; exact h1.symm

theorem not_notDir {F : RedFs.Files} {p : Nat} {f : AFile} {e : Err} (hd : IsDir F p f) : ¬ NotDir F p e := by
  rintro (⟨_, h4⟩ | ⟨_, g, h4⟩)
  · rw [hd.1] at h4; cases h4
  · have := h4.1; rw [hd.1] at this; injection this with this; subst this
    have := h4.2; rw [hd.2] at this; cases this

/-- **C22** Renaming directory `i` to a new name in itself or in a directory below it fails with EINVAL, and
changes nothing.  (The new name is one that could be used: legal, not in use, and there is room in the directory.) -/
theorem C22_rename_below_itself (hc : c.SysOk) (h : Reach c v) (hm : v.mounted = true) (hro : v.readOnly = false) {p p' i n : Nat} {name name' : List Byte} {f f' : AFile}
    (hk : (Call.rename p name p' name').Ok c) (h1 : Has c (files c v) p (nameOf c name) i) (h2 : IsDir (files c v) i f) (h3 : IsDir (files c v) p' f')
    (hb : ancestor c v n p' = some i) (hnm : NameOk c (nameOf c name')) (hfree : ∀ j, ¬ Has c (files c v) p' (nameOf c name') j)
    (hroom : ∃ k, k < c.direntsMax ∧ entOf c (files c v) p' k = none) (he : exec c (.rename p name p' name') v = (r, v')) :
    r = .error .einval ∧ files c v' = files c v := by
  have hp := hk.1
  have hbelow := below_ancestor hc hp h hm ⟨n, hb⟩ ⟨f', h3⟩
  obtain ⟨r0, h4, h5⟩ := rename_rel hc h hm hro hk he
  rcases r0 with e | ⟨⟩
  · obtain ⟨h5, h6⟩ := h5
    refine ⟨?_, h5⟩
    obtain ⟨f0, hd0⟩ : ∃ f0, IsDir (files c v) p f0 := by obtain ⟨k, hk⟩ := h1; exact isDir_of_ent hk
    have hl := (C21_legal hc hp h hm h1).1
    have : e = .einval := by
      cases h6 with
      | srcDir h6 => exact absurd h6 (not_notDir hd0)
      | dstDir h6 => exact absurd h6 (not_notDir h3)
      | dots => rfl
      | dstName h6 =>
        rcases h6 with ⟨h6, _⟩ | ⟨h6, _⟩
        · have := hnm.pos; omega
        · have := hnm.max; omega
      | srcName h6 =>
        rcases h6 with ⟨h6, _⟩ | ⟨h6, _⟩ <;> omega
      | enoent h6 => exact absurd h1 (h6 i)
      | eexist _ h6 => exact absurd h6 (hfree _)
      | enotdir _ h6 => exact absurd h6 (hfree _)
      | eisdir _ h6 => exact absurd h6 (hfree _)
      | enotempty _ h6 => exact absurd h6 (hfree _)
      | cyclic => rfl
      | full _ _ _ h6 => obtain ⟨k, hk1, hk2⟩ := hroom; exact absurd hk2 (h6 k hk1)
      | enospc h6 h7 _ h8 =>
        have := has_fun hc hp h hm h1 h6; subst this
        rw [h2.1] at h7; injection h7 with h7; subst h7
        exact absurd hbelow (h8 h2.2)
    rw [h4, this]; rfl
  · exfalso
    rcases h5 with ⟨_, _, j, _, h6⟩ | ⟨j, g, h6, h7, _, _, _, _, h8, _⟩
    · exact hfree j h6
    · have := has_fun hc hp h hm h1 h6; subst this
      rw [h2.1] at h7; injection h7 with h7; subst h7
      exact h8 h2.2 hbelow

/-! ### C23 -/

/-- **C23** The link count of every file and directory but the root is the number of its names; it is not 0, and
not more than the maximum. -/
theorem C23_link_count (hc : c.SysOk) (hp : c.posix = true) (h : Reach c v) (hm : v.mounted = true) {i : Nat} {f : AFile} (hf : files c v i = some f) (hi : i ≠ 2) :
    HasCard (fun x : Nat × List Byte => Has c (files c v) x.1 x.2 i) f.nlink ∧ 1 ≤ f.nlink ∧ f.nlink ≤ 65535 := by
  have ns := Reach.ns hc hp h hm
  obtain ⟨⟨l, h1, h2, h3⟩, h4, h5⟩ := ns.graph.nlink i ⟨decide (f.mode = modeDir), f.nlink, f.parent⟩ (by show (files c v i).map _ = _; rw [hf]; rfl) hi
  refine ⟨⟨l.map (fun x => (x.1, match entOf c (files c v) x.1 x.2 with | some y => y.2 | none => [])), ?_, ?_, ?_⟩, h4, h5⟩
  · unfold List.Nodup
    rw [List.pairwise_map]
    refine h1.imp_of_mem ?_
    intro a b ha hb hab heq
    obtain ⟨s, hs⟩ := slot_some.1 ((h2 a).1 ha)
    obtain ⟨t, ht⟩ := slot_some.1 ((h2 b).1 hb)
    rw [hs, ht] at heq
    injection heq with e1 e2
    dsimp only at e2
    subst e2
    refine hab (Prod.ext e1 ?_)
    rw [← e1] at ht
    exact C21_unique hc hp h hm hs ht
  · rintro ⟨p, s⟩
    constructor
    · intro hx
      obtain ⟨a, ha, hy⟩ := List.mem_map.1 hx
      obtain ⟨t, ht⟩ := slot_some.1 ((h2 a).1 ha)
      rw [ht] at hy
      injection hy with e1 e2
      dsimp only at e2
      subst e1 e2
      exact ⟨a.2, ht⟩
    · rintro ⟨k, hk⟩
      refine List.mem_map.2 ⟨(p, k), (h2 _).2 (slot_some.2 ⟨s, hk⟩), ?_⟩
      dsimp only at hk ⊢
      rw [hk]
  · rw [List.length_map]; exact h3

/-- **C23** An inode other than the root is in use exactly if it has a name. -/
theorem C23_in_use_iff_named (hc : c.SysOk) (hp : c.posix = true) (h : Reach c v) (hm : v.mounted = true) {i : Nat} (hi : i ≠ 2) :
    (files c v i ≠ none) ↔ ∃ p s, Has c (files c v) p s i := by
  constructor
  · intro hx
    obtain ⟨f, hf⟩ := Option.ne_none_iff_exists'.1 hx
    exact has_name hc hp h hm hf hi
  · rintro ⟨p, s, k, hk⟩ hx
    have := ((Reach.ns hc hp h hm).graph.live p k i (slot_some.2 ⟨s, hk⟩)).2
    change ((files c v i).map _).isSome = true at this
    rw [hx] at this; cases this

/-- **C23** Removing a name: the file loses one link; it is freed exactly if that was the last one. -/
theorem C23_unlink (hc : c.SysOk) (h : Reach c v) (hm : v.mounted = true) {p : Nat} {name : List Byte}
    (hk : (Call.unlink p name).Ok c) (he : exec c (.unlink p name) v = (.ok .unit, v')) :
    ∃ i f, Has c (files c v) p (nameOf c name) i ∧ files c v i = some f ∧
      if f.nlink = 1 then files c v' i = none else files c v' i = some { f with nlink := f.nlink - 1 } := by
  obtain ⟨_, ⟨_, h1 | ⟨e, h1⟩⟩ | ⟨_, i, f, h1, h2, _, h3, _⟩⟩ := call_rel hc h hm hk ⟨fun hh => (by cases hh), fun hh => (by cases hh)⟩ he
  · cases h1
  · cases h1
  · refine ⟨i, f, h1, h2, ?_⟩
    have hp := hk.1
    have hi : i ≠ 2 := by
      obtain ⟨k, hk⟩ := h1
      exact ((Reach.ns hc hp h hm).graph.live p k i (slot_some.2 ⟨_, hk⟩)).1
    have := (C23_link_count hc hp h hm h2 hi).2.1
    rw [h3]; unfold unlinked
    split
    · rw [if_neg (by omega)]
    · rw [if_pos (by omega)]

/-- **C23** A file with the maximum number of links gets no further one: EMLINK. -/
theorem C23_emlink (hc : c.SysOk) (h : Reach c v) (hm : v.mounted = true) (hro : v.readOnly = false) {p i : Nat} {name : List Byte} {f g : AFile}
    (hk : (Call.link p name i).Ok c) (hd : IsDir (files c v) p g) (hf : IsReg (files c v) i f) (hmax : f.nlink = 65535)
    (he : exec c (.link p name i) v = (r, v')) : r = .error .emlink ∧ files c v' = files c v := by
  obtain ⟨r', v'', s', tr, e', d, a, _⟩ := exec_sim hc (Reach.sysOf hc h hm) hk
  rw [he] at e'; obtain ⟨rfl, rfl⟩ := Prod.mk.inj e'
  obtain ⟨_, h2, _⟩ := a.inv ((d.mounted (fun hh => by cases hh) (Or.inl rfl)).trans rfl)
  obtain ⟨r0, h3, h4⟩ := modify_rel d hro
  rw [h2] at h4
  rcases r0 with e | ⟨⟩
  · obtain ⟨h4, h5 | ⟨_, ⟨_, h5⟩ | ⟨_, f', h5⟩ | ⟨f', h5, ⟨rfl, _⟩ | ⟨h6, _⟩⟩⟩⟩ := h4
    · exact absurd h5 (not_notDir hd)
    · rw [hf.1] at h5; cases h5
    · have := h5.1; rw [hf.1] at this; injection this with this; subst this
      have := h5.2; rw [hf.2] at this; cases this
    · exact ⟨h3, h4⟩
    · have := h5.1; rw [hf.1] at this; injection this with this; subst this
      omega
  · obtain ⟨_, _, f', h5, h6, _⟩ := h4
    have := h5.1; rw [hf.1] at this; injection this with this; subst this
    omega

/-! ### C24 -/

/-- **C24** A rename that fails - for whatever reason, also half way - changes no name and no file. -/
theorem C24_failed (hc : c.SysOk) (h : Reach c v) (hm : v.mounted = true) {p p' : Nat} {name name' : List Byte} {e : Err}
    (hk : (Call.rename p name p' name').Ok c) (he : exec c (.rename p name p' name') v = (.error e, v')) : files c v' = files c v := by
  obtain ⟨_, ⟨h1, _⟩ | ⟨h1, _⟩⟩ := call_rel hc h hm hk ⟨fun hh => (by cases hh), fun hh => (by cases hh)⟩ he
  · exact h1
  · cases h1

/-- **C24** A rename that succeeds: the new name refers to the file, and the old one to nothing - unless both
already referred to the same file, then nothing changes.  All other names are as before. -/
theorem C24_names (hc : c.SysOk) (h : Reach c v) (hm : v.mounted = true) {p p' : Nat} {name name' : List Byte} {m : NameMap} (hn : IsNames c (files c v) m)
    (hk : (Call.rename p name p' name').Ok c) (he : exec c (.rename p name p' name') v = (.ok .unit, v')) :
    ∃ i m', m p (nameOf c name) = some i ∧ IsNames c (files c v') m' ∧ m' p' (nameOf c name') = some i ∧
      (m p' (nameOf c name') ≠ some i → m' p (nameOf c name) = none) ∧
      (m p' (nameOf c name') = some i → files c v' = files c v) ∧
      ∀ q s, ¬ (q = p ∧ s = nameOf c name) → ¬ (q = p' ∧ s = nameOf c name') → m' q s = m q s := by
  have hf : Forward (.rename p name p' name') := ⟨fun hh => (by cases hh), fun hh => (by cases hh)⟩
  have hst := names_step hc hk.1 h hm hk hf he hn
  obtain ⟨_, ⟨_, h1 | ⟨e, h1⟩⟩ | ⟨_, h1⟩⟩ := call_rel hc h hm hk hf he
  · cases h1
  · cases h1
  rcases h1 with ⟨h1, _, i, h2, h3⟩ | ⟨i, f, h2, h3, _, _, _, _, _, _, _, hb, h4⟩
  · have e1 := (hn _ _ _).2 h2
    have e2 := (hn _ _ _).2 h3
    refine ⟨i, m, e1, by rw [h1]; exact hn, e2, fun hx => absurd e2 hx, fun _ => h1, fun _ _ _ _ => rfl⟩
  · have e1 := (hn _ _ _).2 h2
    have hne : m p' (nameOf c name') ≠ some i := by
      intro hx
      have h5 := (hn _ _ _).1 hx
      rcases h4 with ⟨h4, _⟩ | ⟨j, g, _, h4, _, h6, _⟩
      · exact h4 i h5
      · exact h6 (has_fun hc hk.1 h hm h4 h5)
    have e3 : rebind c m (.rename p name p' name', .ok .unit) = (m.set p (nameOf c name) none).set p' (nameOf c name') (m p (nameOf c name)) := by
      show (if _ then _ else _) = _
      rw [if_neg (by rw [e1]; exact fun hx => hne hx.symm)]
    rw [e3] at hst
    have hdiff : ¬ (p = p' ∧ nameOf c name = nameOf c name') := by
      rintro ⟨rfl, hx⟩
      rw [hx] at e1; exact hne e1
    refine ⟨i, _, e1, hst, ?_, ?_, fun hx => absurd hx hne, ?_⟩
    · unfold NameMap.set; rw [if_pos ⟨rfl, rfl⟩]; exact e1
    · intro _
      unfold NameMap.set; rw [if_neg hdiff, if_pos ⟨rfl, rfl⟩]
    · intro q s h5 h6
      unfold NameMap.set; rw [if_neg h6, if_neg h5]

/-- **C24** The renamed file itself is unchanged (a directory knows its new parent), a replaced file loses one
link, and no file other than these and the two directories is changed. -/
theorem C24_files (hc : c.SysOk) (h : Reach c v) (hm : v.mounted = true) {p p' : Nat} {name name' : List Byte}
    (hk : (Call.rename p name p' name').Ok c) (he : exec c (.rename p name p' name') v = (.ok .unit, v')) (hne : files c v' ≠ files c v) :
    ∃ i f, Has c (files c v) p (nameOf c name) i ∧ files c v i = some f ∧ files c v' i = some { f with parent := p' } ∧
      (∀ j g, Has c (files c v) p' (nameOf c name') j → files c v j = some g →
        c.renameAtomic = true ∧ g.mode = f.mode ∧ Empty c (files c v) j ∧
        if g.nlink = 1 then files c v' j = none else files c v' j = some { g with nlink := g.nlink - 1 }) ∧
      ∀ q, q ≠ i → q ≠ p → q ≠ p' → ¬ Has c (files c v) p' (nameOf c name') q → files c v' q = files c v q := by
  obtain ⟨_, ⟨h1, _⟩ | ⟨_, h1⟩⟩ := call_rel hc h hm hk ⟨fun hh => (by cases hh), fun hh => (by cases hh)⟩ he
  · exact absurd h1 hne
  have hp := hk.1
  rcases h1 with ⟨h1, _⟩ | ⟨i, f, h2, h3, _, _, _, h5, _, _, _, _, h4⟩
  · exact absurd h1 hne
  refine ⟨i, f, h2, h3, h5, ?_, ?_⟩
  · intro j g h6 h7
    rcases h4 with ⟨h4, _⟩ | ⟨j', g', ha, h8, h9, _, _, _, hmode, hemp, h10, _⟩
    · exact absurd h6 (h4 j)
    · have := has_fun hc hp h hm h6 h8; subst this
      rw [h7] at h9; injection h9 with h9; subst h9
      refine ⟨ha, hmode.symm, hemp, ?_⟩
      have hj : j ≠ 2 := by
        obtain ⟨k, hk⟩ := h6
        exact ((Reach.ns hc hp h hm).graph.live p' k j (slot_some.2 ⟨_, hk⟩)).1
      have := (C23_link_count hc hp h hm h7 hj).2.1
      rw [h10]; unfold unlinked
      split
      · rw [if_neg (by omega)]
      · rw [if_pos (by omega)]
  · intro q h6 h7 h8 h9
    rcases h4 with ⟨_, h4⟩ | ⟨j', g', _, h10, _, _, _, _, _, _, _, h4⟩
    · exact h4 q h6 h7 h8
    · exact h4 q h6 (by rintro rfl; exact h9 h10) h7 h8


/-! ### The hypotheses can be met

The demo volume has directory "d" (inode 3) and file "a" (inode 4), which is also "d/b". -/

theorem isDir_of {F : RedFs.Files} {i : Nat} (h : (match F i with | some f => decide (f.mode = modeDir) | none => false) = true) : ∃ f, IsDir F i f := by
  cases hf : F i with
  | none => rw [hf] at h; cases h
  | some f => rw [hf] at h; exact ⟨f, hf, of_decide_eq_true h⟩

theorem demo_root : ∃ f, IsDir (files demoConf demoVol) 2 f := isDir_of (by decide +kernel)
theorem demo_d : ∃ f, IsDir (files demoConf demoVol) 3 f := isDir_of (by decide +kernel)
theorem demo_a : ∃ f, IsReg (files demoConf demoVol) 4 f := isReg_of (by decide +kernel)
theorem demo_has_d : Has demoConf (files demoConf demoVol) 2 nmD 3 := ⟨0, by decide +kernel⟩
theorem demo_has_a : Has demoConf (files demoConf demoVol) 2 nmA 4 := ⟨1, by decide +kernel⟩
theorem demo_has_b : Has demoConf (files demoConf demoVol) 3 nmB 4 := ⟨0, by decide +kernel⟩
theorem demo_rw : demoVol.readOnly = false := by decide +kernel
theorem nmOk (s : List Byte) (h : s = nmA ∨ s = nmB ∨ s = nmD) : Str.CStr.Ok s ∧ nameOf demoConf s = s ∧ NameOk demoConf s := by
  rcases h with rfl | rfl | rfl <;> exact ⟨by decide, by decide, ⟨by decide, by decide, by decide, by decide, by decide, by decide⟩⟩

/-- C19: the names by the history, and the lookup. -/
example : ∃ m, IsNames demoConf (files demoConf fileVol) m ∧ m 2 nmA = some 4 := by
  obtain ⟨m0, h0⟩ := C19_is_map demo_sys rfl start_reach start_mounted
  refine ⟨_, (C19_names demo_sys rfl fileCalls_ok start_reach start_mounted h0).2, ?_⟩
  have : Has demoConf (files demoConf fileVol) 2 nmA 4 := ⟨1, by decide +kernel⟩
  exact (((C19_names demo_sys rfl fileCalls_ok start_reach start_mounted h0).2) 2 nmA 4).2 this
example : (exec demoConf (.lookup 3 nmB) demoVol).1 = .ok (.num 4) := by
  obtain ⟨m, hm⟩ := C19_is_map demo_sys rfl demo_reach demo_mounted
  rw [C19_lookup demo_sys rfl demo_reach demo_mounted hm (by decide) demo_d (by decide) (by decide), (nmOk nmB (by simp)).2.1, (hm _ _ _).2 demo_has_b]

/-- C20, C21: the root directory has two entries. -/
example : ∃ l, Listing demoConf 2 0 demoVol l ∧ (nmD, 3) ∈ l ∧ (nmA, 4) ∈ l := by
  obtain ⟨l, h1, _, h2⟩ := C20_readdir demo_sys rfl demo_reach demo_mounted demo_root
  exact ⟨l, h1, (h2 _ _).2 demo_has_d, (h2 _ _).2 demo_has_a⟩
example : demoConf.inodeValid 4 = true := (C21_legal demo_sys rfl demo_reach demo_mounted demo_has_b).2
example (k j : Nat) (h : entOf demoConf (files demoConf demoVol) 3 k = some (j, nmB)) : k = 0 :=
  C21_unique demo_sys rfl demo_reach demo_mounted h (show entOf demoConf (files demoConf demoVol) 3 0 = some (4, nmB) by decide +kernel)
example : ∃ e, (exec demoConf (.create 2 nmA false) demoVol).1 = .error e :=
  C21_rejected demo_sys demo_reach demo_mounted (Or.inl ⟨false, rfl⟩) ⟨rfl, by decide⟩ (exec_eta ..) (Or.inr ⟨4, by rw [(nmOk nmA (by simp)).2.1]; exact demo_has_a⟩)
example : ∃ e, (exec demoConf (.create 3 [46#8, 46#8] true) demoVol).1 = .error e :=
  C21_rejected demo_sys demo_reach demo_mounted (Or.inl ⟨true, rfl⟩) ⟨rfl, by decide⟩ (exec_eta ..) (Or.inl fun h => h.dotdot (by decide))

/-- C22: "d" is in the root; it cannot be moved below itself. -/
example : ∃ n, ancestor demoConf demoVol n 3 = some 2 := C22_connected demo_sys rfl demo_reach demo_mounted demo_d
example : ancestor demoConf demoVol 1 3 ≠ some 3 := C22_acyclic demo_sys rfl demo_reach demo_mounted demo_d
example : ∃ path, Resolves demoConf (files demoConf demoVol) 2 path 4 := by
  obtain ⟨f, hf⟩ := demo_a
  exact C22_every_file_has_a_path demo_sys rfl demo_reach demo_mounted hf.1
example : (exec demoConf (.rename 2 nmD 3 nmA) demoVol).1 = .error .einval := by
  obtain ⟨f, hf⟩ := demo_d
  have hnone : ∀ k, 1 ≤ k → entOf demoConf (files demoConf demoVol) 3 k = none := by
    intro k hk
    have ok := ((Reach.ns demo_sys rfl demo_reach demo_mounted).dirs 3 f hf).2
    rw [entOf_dir hf]
    refine ok.out k ?_
    have : (match files demoConf demoVol 3 with | some f => demoConf.offIdx f.size | none => 0) = 1 := by decide +kernel
    rw [hf.1] at this
    show demoConf.offIdx f.size ≤ k
    dsimp only at this; omega
  refine (C22_rename_below_itself demo_sys demo_reach demo_mounted demo_rw (p := 2) (p' := 3) (i := 3) (n := 0) (name := nmD) (name' := nmA)
    ⟨rfl, by decide, by decide⟩ ?_ hf hf rfl ?_ ?_ ⟨1, by decide, hnone 1 (by omega)⟩ (exec_eta ..)).1
  · rw [(nmOk nmD (by simp)).2.1]; exact demo_has_d
  · rw [(nmOk nmA (by simp)).2.1]; exact (nmOk nmA (by simp)).2.2
  · rw [(nmOk nmA (by simp)).2.1]
    rintro j ⟨k, hk⟩
    by_cases h0 : k = 0
    · subst h0
      have : entOf demoConf (files demoConf demoVol) 3 0 = some (4, nmB) := by decide +kernel
      rw [this] at hk; injection hk with hk; injection hk with _ hk; cases hk
    · rw [hnone k (by omega)] at hk; cases hk

/-- C23: the demo file has two names, and loses one. -/
example : ∃ f, files demoConf demoVol 4 = some f ∧ f.nlink = 2 ∧ HasCard (fun x : Nat × List Byte => Has demoConf (files demoConf demoVol) x.1 x.2 4) 2 := by
  obtain ⟨f, hf⟩ := demo_a
  have h1 := (C23_link_count demo_sys rfl demo_reach demo_mounted hf.1 (by decide)).1
  have : (match files demoConf demoVol 4 with | some f => f.nlink | none => 0) = 2 := by decide +kernel
  rw [hf.1] at this
  exact ⟨f, hf.1, this, by rw [← show f.nlink = 2 from this]; exact h1⟩
example : files demoConf demoVol 4 ≠ none := (C23_in_use_iff_named demo_sys rfl demo_reach demo_mounted (by decide)).2 ⟨3, nmB, demo_has_b⟩

/-- The result of a call, if it is as expected. -/
theorem unit_run {k : Call} (h : (match (exec c k v).1 with | .ok .unit => true | _ => false) = true) : exec c k v = (.ok .unit, (exec c k v).2) := by
  generalize exec c k v = x at h ⊢
  rcases x with ⟨e | a, y⟩
  · cases h
  · cases a <;> first | rfl | cases h
example : ∃ i f, Has demoConf (files demoConf demoVol) 2 (nameOf demoConf nmA) i ∧ files demoConf demoVol i = some f := by
  obtain ⟨i, f, h1, h2, _⟩ := C23_unlink demo_sys demo_reach demo_mounted (p := 2) (name := nmA) ⟨rfl, by decide⟩ (unit_run (by decide +kernel))
  exact ⟨i, f, h1, h2⟩
/-- (A table of files in which a file has the maximum number of links; it takes 65535 calls to get one.) -/
example : ∃ F : RedFs.Files, ∃ f, IsReg F 4 f ∧ f.nlink = 65535 := ⟨fun _ => some ⟨modeReg, 65535, 2, 0, fun _ => 0⟩, _, ⟨rfl, rfl⟩, rfl⟩

/-- C24: "a" is renamed to "d/a", and "a" to "d/b", the same file. -/
example : ∃ i m', IsNames demoConf (files demoConf (exec demoConf (.rename 2 nmA 3 nmA) demoVol).2) m' ∧ m' 3 (nameOf demoConf nmA) = some i ∧ i = 4 := by
  obtain ⟨m, hm⟩ := C19_is_map demo_sys rfl demo_reach demo_mounted
  obtain ⟨i, m', h1, h2, h3, _⟩ := C24_names demo_sys demo_reach demo_mounted hm (p := 2) (p' := 3) (name := nmA) (name' := nmA) ⟨rfl, by decide, by decide⟩
    (unit_run (by decide +kernel))
  refine ⟨i, m', h2, h3, ?_⟩
  rw [(nmOk nmA (by simp)).2.1, (hm _ _ _).2 demo_has_a] at h1
  injection h1 with h1; exact h1.symm
example : files demoConf (exec demoConf (.rename 2 nmA 3 nmB) demoVol).2 = files demoConf demoVol := by
  obtain ⟨m, hm⟩ := C19_is_map demo_sys rfl demo_reach demo_mounted
  obtain ⟨i, m', h1, h2, h3, _, h4, _⟩ := C24_names demo_sys demo_reach demo_mounted hm (p := 2) (p' := 3) (name := nmA) (name' := nmB) ⟨rfl, by decide, by decide⟩
    (unit_run (by decide +kernel))
  refine h4 ?_
  rw [(nmOk nmA (by simp)).2.1, (hm _ _ _).2 demo_has_a] at h1
  injection h1 with h1; subst h1
  rw [(nmOk nmB (by simp)).2.1]; exact (hm _ _ _).2 demo_has_b
example : files demoConf (exec demoConf (.rename 2 nmA 3 nmA) demoVol).2 ≠ files demoConf demoVol := by
  intro h
  have h1 : (entOf demoConf (files demoConf (exec demoConf (.rename 2 nmA 3 nmA) demoVol).2) 3 1).isSome = true := by decide +kernel
  have h2 : (entOf demoConf (files demoConf demoVol) 3 1).isSome = false := by decide +kernel
  rw [h, h2] at h1; cases h1

end RedFs.Props.Names
