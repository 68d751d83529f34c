import Verif.Props.PosixIo
import Verif.Lemmas.PosixWalk
set_option linter.unusedSimpArgs false
set_option linter.unusedVariables false
set_option linter.unusedSectionVars false
/-!
C33: the meaning of paths.  C34: the volume of a path.
-/
namespace RedFs.Props.PosixNames
open RedFs.Posix M Str Path Spec
open RedFs.Props.PosixUse (Unchanged unchanged_of unchanged_onVol)

/-! ### The elements of a path -/

theorem pieces_sep (sep : Byte) (a b : List Byte) : pieces sep (a ++ sep :: b) = pieces sep a ++ pieces sep b := by
  induction a with
  | nil => simp [pieces]
  | cons x a ih =>
    show pieces sep (x :: (a ++ sep :: b)) = _
    simp only [show ∀ l, pieces sep (x :: l) = (if x = sep then [] :: pieces sep l else match pieces sep l with
      | p :: ps => (x :: p) :: ps
      | [] => [[x]]) from fun _ => rfl]
    by_cases hx : x = sep
    · rw [if_pos hx, if_pos hx, ih]; rfl
    · rw [if_neg hx, if_neg hx, ih]
      have := pieces_ne sep a
      cases h : pieces sep a with
      | nil => exact absurd h this
      | cons p ps => rfl

/-- **C33** A path is split at its separators, and empty elements do not count: these three laws say what the elements of a path are. -/
theorem C33_split (sep : Byte) (a b : List Byte) : comps sep (a ++ sep :: b) = comps sep a ++ comps sep b := by
  unfold comps; rw [pieces_sep, List.filter_append]
theorem C33_split_nil (sep : Byte) : comps sep [] = [] := comps_nil sep
theorem C33_split_name (sep : Byte) {a : List Byte} (h : a ≠ []) (hs : ∀ x ∈ a, x ≠ sep) : comps sep a = [a] := by
  have : pieces sep a = [a] := by
    clear h
    induction a with
    | nil => rfl
    | cons x a ih =>
      unfold pieces
      rw [if_neg (hs x (by simp)), ih fun y hy => hs y (by simp [hy])]
  unfold comps; rw [this]; simp [h]

/-- **C33** Leading, trailing and repeated separators do not matter. -/
theorem C33_separators (sep : Byte) (a b : List Byte) :
    comps sep (sep :: a) = comps sep a ∧ comps sep (a ++ [sep]) = comps sep a ∧ comps sep (a ++ sep :: sep :: b) = comps sep (a ++ sep :: b) := by
  refine ⟨?_, ?_, ?_⟩
  · have := C33_split sep [] a; rw [comps_nil] at this; exact this
  · have := C33_split sep a []; rw [comps_nil, List.append_nil] at this; exact this
  · rw [C33_split, C33_split, comps_sep]

/-! ### Following a path -/

section
variable {c : Conf} {v : Vol} (hc : c.SysOk) (hp : c.posix = true) (h : Reach c v) (hm : v.mounted = true)
include hc hp h hm

/-- **C33** Following a path has exactly one result, an inode or an error. -/
theorem C33_one_result (dots : Prop) (cs : List (List Byte)) {i : Nat} (hi : files c v i ≠ none) : ∃! r, Walk c (files c v) dots i cs r := by
  obtain ⟨r, w⟩ := Walk.total hc hp h hm dots cs hi
  exact ⟨r, w, fun r' w' => Walk.det hc hp h hm w' w⟩

/-- **C33** Following a path is following its beginning, and the rest from where that leads to; an error in the beginning is the result. -/
theorem C33_walk_append {dots : Prop} {cs ds : List (List Byte)} : ∀ {i : Nat}, files c v i ≠ none → ∀ {r : Except Err Nat}, Walk c (files c v) dots i (cs ++ ds) r ↔
    (∃ j, Walk c (files c v) dots i cs (.ok j) ∧ Walk c (files c v) dots j ds r) ∨ ∃ e, Walk c (files c v) dots i cs (.error e) ∧ r = .error e := by
  induction cs with
  | nil =>
    intro i hi r
    constructor
    · intro w; exact Or.inl ⟨i, .done, w⟩
    · rintro (⟨j, w, w'⟩ | ⟨e, w, _⟩)
      · cases w; exact w'
      · cases w
  | cons n cs ih =>
    intro i hi r
    have up_ne : ∀ {f}, IsDir (files c v) i f → files c v (if i = 2 then 2 else f.parent) ≠ none := by
      intro f hf
      split
      · obtain ⟨g, hg, _⟩ := root_dir hc hp h hm; rw [hg.1]; simp
      · rename_i e
        obtain ⟨g, hg⟩ := parent_dir hc hp h hm hf e
        rw [hg.1]; simp
    constructor
    · intro w
      cases w with
      | name hn hh w =>
        rcases (ih (has_live hc hp h hm hh).2.2.1).1 w with ⟨j, a, b⟩ | ⟨e, a, b⟩
        · exact Or.inl ⟨j, .name hn hh a, b⟩
        · exact Or.inr ⟨e, .name hn hh a, b⟩
      | dot hd hf w =>
        rcases (ih hi).1 w with ⟨j, a, b⟩ | ⟨e, a, b⟩
        · exact Or.inl ⟨j, .dot hd hf a, b⟩
        · exact Or.inr ⟨e, .dot hd hf a, b⟩
      | up hd hf w =>
        rcases (ih (up_ne hf)).1 w with ⟨j, a, b⟩ | ⟨e, a, b⟩
        · exact Or.inl ⟨j, .up hd hf a, b⟩
        · exact Or.inr ⟨e, .up hd hf a, b⟩
      | notDir hr => exact Or.inr ⟨_, .notDir hr, rfl⟩
      | tooLong hn hf hl => exact Or.inr ⟨_, .tooLong hn hf hl, rfl⟩
      | missing hn hf hl hx => exact Or.inr ⟨_, .missing hn hf hl hx, rfl⟩
    · rintro (⟨j, w, b⟩ | ⟨e, w, b⟩)
      · cases w with
        | name hn hh w => exact .name hn hh ((ih (has_live hc hp h hm hh).2.2.1).2 (Or.inl ⟨j, w, b⟩))
        | dot hd hf w => exact .dot hd hf ((ih hi).2 (Or.inl ⟨j, w, b⟩))
        | up hd hf w => exact .up hd hf ((ih (up_ne hf)).2 (Or.inl ⟨j, w, b⟩))
      · subst b
        cases w with
        | name hn hh w => exact .name hn hh ((ih (has_live hc hp h hm hh).2.2.1).2 (Or.inr ⟨e, w, rfl⟩))
        | dot hd hf w => exact .dot hd hf ((ih hi).2 (Or.inr ⟨e, w, rfl⟩))
        | up hd hf w => exact .up hd hf ((ih (up_ne hf)).2 (Or.inr ⟨e, w, rfl⟩))
        | notDir hr => exact .notDir hr
        | tooLong hn hf hl => exact .tooLong hn hf hl
        | missing hn hf hl hx => exact .missing hn hf hl hx

end

/-! ### The volume -/

variable {pc : PConf} {s s' s1 : PSt} {t : Nat} {k : PCall} {r : Except Err PReply} {fd : Int} {j : Nat}

/-- **C34** At most one volume has the longest prefix that matches, and there is one if any prefix matches. -/
theorem C34_unique (hc : pc.Ok) {path : List Byte} {i j : Nat} (h : Selected pc path i) (h' : Selected pc path j) : i = j := h.uniq hc h'
theorem C34_exists {path : List Byte} : (∃ i, i < pc.n ∧ Matches pc.sep (pc.pre i) path) ↔ ∃ i, Selected pc path i := by
  constructor
  · rintro ⟨i, hi, hm⟩
    have key : ∀ d i, i < pc.n → Matches pc.sep (pc.pre i) path → path.length + 1 ≤ (pc.pre i).length + d → ∃ j, Selected pc path j := by
      intro d
      induction d with
      | zero =>
        intro i hi hm hl
        have := congrArg List.length (matches_take hm)
        rw [List.length_take] at this
        omega
      | succ d ih =>
        intro i hi hm hl
        by_cases hx : ∃ j, j < pc.n ∧ Matches pc.sep (pc.pre j) path ∧ (pc.pre i).length < (pc.pre j).length
        · obtain ⟨j, hj, hmj, hlt⟩ := hx
          exact ih j hj hmj (by omega)
        · refine ⟨i, hi, hm, fun j hj hmj => ?_⟩
          rcases Nat.lt_or_ge (pc.pre i).length (pc.pre j).length with h | h
          · exact absurd ⟨j, hj, hmj, h⟩ hx
          · exact h
    exact key (path.length + 1) i hi hm (by omega)
  · rintro ⟨i, hi, hm, _⟩; exact ⟨i, hi, hm⟩

/-- The path is a relative one: there are current working directories, no prefix (but the empty one) matches it, and it does not begin with a separator. -/
def Relative (pc : PConf) (path : List Byte) : Prop :=
  pc.cwd = true ∧ (∀ i, i < pc.n → pc.pre i ≠ [] → ¬ Matches pc.sep (pc.pre i) path) ∧ path ≠ [] ∧ path.head? ≠ some pc.sep

/-- The paths of a call. -/
def paths : PCall → List (List Byte)
  | .open path _ => [path]
  | .unlink path => [path]
  | .mkdir path => [path]
  | .rmdir path => [path]
  | .rename old new => [old, new]
  | .link path new => [path, new]
  | .opendir path => [path]
  | .chdir path => [path]
  | _ => []

/-- The name of a volume that is passed to the call. -/
def volArg : PCall → Option (List Byte)
  | .mount vol _ => some vol
  | .umount vol _ => some vol
  | .format vol => some vol
  | .transact vol => some vol
  | .rollback vol => some vol
  | .setMask vol _ => some vol
  | .getMask vol => some vol
  | .statvfs vol => some vol
  | _ => none

theorem start_of_selected {path : List Byte} {i : Nat} (hr : ¬ Relative pc path) (h : Selected pc path i) : StartAt pc s t path (.ok (i, 2, path.drop (pc.pre i).length)) :=
  .abs (fun hw hn => by
    by_cases h1 : path = []
    · exact Or.inl h1
    · by_cases h2 : path.head? = some pc.sep
      · exact Or.inr h2
      · exact absurd ⟨hw, hn, h1, h2⟩ hr) h

theorem start_none {path : List Byte} (hr : ¬ Relative pc path) (hn : ∀ i, ¬ Selected pc path i) : StartAt pc s t path (.error .enoent) := by
  have hn' : ∀ i, i < pc.n → ¬ Matches pc.sep (pc.pre i) path := fun i hi hm => by
    obtain ⟨j, hj⟩ := C34_exists.1 ⟨i, hi, hm⟩
    exact hn j hj
  exact .none_ hn' fun hw => by
    by_cases h1 : path = []
    · exact Or.inl h1
    · by_cases h2 : path.head? = some pc.sep
      · exact Or.inr h2
      · exact absurd ⟨hw, fun i hi _ => hn' i hi, h1, h2⟩ hr

section
variable (hc : pc.Ok) (h : PReach pc s) (hin : s.inited = true) (R : Registers pc t s s1)
include hc h hin R

/-- Where a path starts, in words: at the root of the selected volume, or at the current directory. -/
theorem C34_absolute {path : List Byte} {i : Nat} (ht : t ≠ 0) (hr : ¬ Relative pc path) {x : Nat × Nat × List Byte} :
    StartAt pc s1 t path (.ok x) ↔ ∃ i, Selected pc path i ∧ x = (i, 2, path.drop (pc.pre i).length) := by
  have hi1 := R.inv (h.inv hc) ht
  have hin1 := R.alike.inited.trans hin
  constructor
  · intro hs
    cases hs with
    | cwd h1 h2 h3 h4 => exact absurd ⟨h1, h2, h3, h4⟩ hr
    | abs _ hS => exact ⟨_, hS, rfl⟩
  · rintro ⟨i, hS, rfl⟩
    exact start_of_selected hr hS

/-- **C34** A path that is not relative and matches the prefix of no volume: every call with it fails with `ENOENT` and changes nothing. -/
theorem C34_enoent {path : List Byte} (hp : Permitted pc t k s) (hk : (paths k).head? = some path) (hmode : ∀ path mode, k = .open path mode → ModeOk mode)
    (hr : ¬ Relative pc path) (hn : ∀ i, ¬ Selected pc path i) : (pexec pc t k s).1 = .error .enoent ∧ Unchanged pc s (pexec pc t k s).2 := by
  have hni : k ≠ .init := by rintro rfl; cases hk
  have hb : ¬ k.Bad := by cases k <;> first | exact id | cases hk
  obtain ⟨s2, d, a2⟩ := call_body hc h hp hni hin hb R
  have hi1 := R.inv (h.inv hc) hp.1
  have a1 := R.alike
  have hin1 := a1.inited.trans hin
  have st : StartAt pc s1 t path (.error .enoent) := start_none hr hn
  have no : ∀ {x}, ¬ StartAt pc s1 t path (.ok x) := fun hx => by have := st.det hc hi1 hin1 hp.1 hx; cases this
  have er : ∀ {e}, StartAt pc s1 t path (.error e) → e = .enoent := fun hx => by have := st.det hc hi1 hin1 hp.1 hx; injection this with this; exact this.symm
  have nm : ∀ {re e}, Names pc s1 t path re (.error e) → e = .enoent := fun hx => by
    cases hx with
    | start hx => exact er hx
    | off hx => exact absurd hx no
    | error hx => exact absurd hx no
  have nmo : ∀ {re x}, ¬ Names pc s1 t path re (.ok x) := fun hx => by
    cases hx with | ok hx => exact no hx
  have fd : ∀ {e}, Finds pc s1 t path (.error e) → e = .enoent := fun hx => by
    cases hx with
    | start hx => exact er hx
    | off hx => exact absurd hx no
    | error hx => exact absurd hx no
  have fdo : ∀ {x}, ¬ Finds pc s1 t path (.ok x) := fun hx => by
    cases hx with | ok hx => exact no hx
  generalize (pexec pc t k s).1 = r at *
  generalize (pexec pc t k s).2 = s' at *
  have fin : ∀ {α : Type} {r0 : Except Err α} {f : α → PReply} {e : Err}, Fails pc s1 r0 s2 e → e = .enoent → r = r0.map f → r = .error .enoent ∧ Unchanged pc s s' := by
    intro α r0 f e hf he hr
    subst he
    exact ⟨by rw [hr, hf.1]; rfl, unchanged_of a1 hf.2 a2⟩
  cases k with
  | «open» p mode =>
    injection hk with e; subst e; obtain ⟨r0, hr, d⟩ := d
    rcases d.1 (hmode _ _ rfl) with ⟨e, hx, d⟩ | ⟨_, _, _, hx, _⟩
    · exact fin d (er hx) hr
    · exact absurd hx no
  | unlink p =>
    injection hk with e; subst e; obtain ⟨r0, hr, d⟩ := d
    rcases d with ⟨e, hx, d⟩ | ⟨_, _, _, hx, _⟩
    · exact fin d (nm hx) hr
    · exact absurd hx nmo
  | mkdir p =>
    injection hk with e; subst e; obtain ⟨r0, hr, d⟩ := d
    rcases d with ⟨e, hx, d⟩ | ⟨_, _, _, _, hx, _⟩
    · exact fin d (nm hx) hr
    · exact absurd hx nmo
  | rmdir p =>
    injection hk with e; subst e; obtain ⟨r0, hr, d⟩ := d
    rcases d with ⟨e, hx, d⟩ | ⟨_, _, _, hx, _⟩
    · exact fin d (nm hx) hr
    · exact absurd hx nmo
  | rename p q =>
    injection hk with e; subst e; obtain ⟨r0, hr, d⟩ := d
    rcases d with ⟨e, hx, d⟩ | ⟨e, x, hx, _⟩ | ⟨x, y, hx, _⟩ | ⟨e, x, y, hx, _⟩ | ⟨e, x, y, hx, _⟩ | ⟨vol1, q, n, q', n', hX, _⟩
    · exact fin d (er hx) hr
    · exact absurd hx no
    · exact absurd hx no
    · exact absurd hx no
    · exact absurd hx no
    · exact absurd hX nmo
  | link p q =>
    injection hk with e; subst e; obtain ⟨r0, hr, d⟩ := d
    rcases d with ⟨e, hx, d⟩ | ⟨e, x, hx, _⟩ | ⟨x, y, hx, _⟩ | ⟨e, x, y, hx, _⟩ | ⟨e, x, y, hx, _⟩ | ⟨vol1, q, n, q', hX, _⟩
    · exact fin d (er hx) hr
    · exact absurd hx no
    · exact absurd hx no
    · exact absurd hx no
    · exact absurd hx no
    · exact absurd hX fdo
  | opendir p =>
    injection hk with e; subst e; obtain ⟨r0, hr, r1, d, d'⟩ := d
    rcases d with ⟨e, hx, d⟩ | ⟨_, _, _, hx, _⟩
    · rcases d' with ⟨e', h1, h2⟩ | ⟨_, _, h1, _⟩
      · rw [d.1] at h1; injection h1 with h1; subst h1
        exact fin ⟨h2, d.2⟩ (er hx) hr
      · rw [d.1] at h1; cases h1
    · exact absurd hx no
  | chdir p =>
    injection hk with e; subst e; obtain ⟨r0, hr, d⟩ := d
    rcases d with ⟨e, hx, d⟩ | ⟨_, _, hx, _⟩
    · exact fin d (fd hx) hr
    · exact absurd hx fdo
  | _ => cases hk


/-! ### What the calls do with paths -/

/-- The call succeeds: it has done what it does. -/
theorem body_ok {a : PReply} (hp : Permitted pc t k s) (hni : k ≠ .init) (he : pexec pc t k s = (.ok a, s')) : BodyDoes pc t k s1 (.ok a) s' := by
  obtain ⟨s1', R', _, d⟩ := call_ok hc h hp hni hin he
  rw [R.uniq R']; exact d

theorem reach' {a : PReply} (hp : Permitted pc t k s) (he : pexec pc t k s = (.ok a, s')) : PInv pc s' := by
  have := (h.call hp).inv hc; rw [he] at this; exact this

/-- **C33** Two paths that start at the same directory and have the same elements mean the same. -/
theorem C33_spelling {path path' l l' : List Byte} {vol start : Nat} (ht : t ≠ 0) (h1 : StartAt pc s1 t path (.ok (vol, start, l))) (h2 : StartAt pc s1 t path' (.ok (vol, start, l')))
    (he : comps pc.sep l = comps pc.sep l') : (∀ x, Finds pc s1 t path x ↔ Finds pc s1 t path' x) ∧ ∀ re x, Names pc s1 t path re x ↔ Names pc s1 t path' re x := by
  have hi1 := R.inv (h.inv hc) ht
  have hin1 := R.alike.inited.trans hin
  have key : ∀ {path path' l l' : List Byte}, StartAt pc s1 t path (.ok (vol, start, l)) → StartAt pc s1 t path' (.ok (vol, start, l')) → comps pc.sep l = comps pc.sep l' →
      (∀ x, Finds pc s1 t path x → Finds pc s1 t path' x) ∧ ∀ re x, Names pc s1 t path re x → Names pc s1 t path' re x := by
    intro path path' l l' h1 h2 he
    refine ⟨fun x f => ?_, fun re x f => ?_⟩
    · cases f with
      | start hs => have := hs.det hc hi1 hin1 ht h1; cases this
      | off hs a => have := hs.det hc hi1 hin1 ht h1; cases this; exact .off h2 a
      | error hs a b => have := hs.det hc hi1 hin1 ht h1; cases this; exact .error h2 a (he ▸ b)
      | ok hs a b => have := hs.det hc hi1 hin1 ht h1; cases this; exact .ok h2 a (he ▸ b)
    · cases f with
      | start hs => have := hs.det hc hi1 hin1 ht h1; cases this
      | off hs a b => have := hs.det hc hi1 hin1 ht h1; cases this; exact .off h2 a b
      | error hs a b => have := hs.det hc hi1 hin1 ht h1; cases this; exact .error h2 a (he ▸ b)
      | ok hs a b => have := hs.det hc hi1 hin1 ht h1; cases this; exact .ok h2 a (he ▸ b)
  exact ⟨fun x => ⟨(key h1 h2 he).1 x, (key h2 h1 he.symm).1 x⟩, fun re x => ⟨(key h1 h2 he).2 re x, (key h2 h1 he.symm).2 re x⟩⟩

/-- Names have been added to the volume: paths which could be found mean what they meant. -/
theorem finds_mono {s2 : PSt} {path : List Byte} {vol v i : Nat} {R : Files → Files → Prop} (ht : t ≠ 0) (o : OnVol pc vol s1 s2 R)
    (hh : ∀ p n j, Has (pc.conf vol) (s1.files pc vol) p n j → Has (pc.conf vol) (s2.files pc vol) p n j)
    (hd : ∀ j f, IsDir (s1.files pc vol) j f → ∃ f', IsDir (s2.files pc vol) j f' ∧ f'.parent = f.parent)
    (f : Finds pc s1 t path (.ok (v, i))) : Finds pc s2 t path (.ok (v, i)) := by
  have hv := (Finds.at hc (Registers.inv ‹_› (h.inv hc) ht) ((Registers.alike ‹_›).inited.trans hin) ht f).1
  cases f with
  | @ok _ start _ l hs hm w =>
    by_cases e : v = vol
    · subst e; exact .ok (hs.congr o.slot) o.up' (Walk.mono hh hd w rfl)
    · have := o.others v hv e
      refine .ok (hs.congr o.slot) (this.mounted.trans hm) ?_
      unfold PSt.files at w ⊢
      rw [this.files hm]; exact w

/-- A new name has been added: its path means the file. -/
theorem names_added {s2 : PSt} {path nm : List Byte} {vol p i : Nat} {R : Files → Files → Prop} {re : Err} (ht : t ≠ 0) (o : OnVol pc vol s1 s2 R)
    (hh : ∀ p n j, Has (pc.conf vol) (s1.files pc vol) p n j → Has (pc.conf vol) (s2.files pc vol) p n j)
    (hd : ∀ j f, IsDir (s1.files pc vol) j f → ∃ f', IsDir (s2.files pc vol) j f' ∧ f'.parent = f.parent)
    (hN : Names pc s1 t path re (.ok (vol, p, nm))) (hi : Has (pc.conf vol) (s2.files pc vol) p nm i) : Finds pc s2 t path (.ok (vol, i)) := by
  cases hN with
  | @ok _ start _ l _ hs hm w =>
    generalize he : comps pc.sep l = cs at w
    cases w with
    | @name cs _ _ hn w => exact .ok (hs.congr o.slot) o.up' (by rw [he]; exact Walk.snoc (Walk.mono hh hd w rfl) rfl hn hi)

/-- A path that names something that does not exist means no file. -/
theorem names_none {path nm : List Byte} {vol p : Nat} {re : Err} (ht : t ≠ 0) (hN : Names pc s1 t path re (.ok (vol, p, nm)))
    (hx : ∀ j, ¬ Has (pc.conf vol) (s1.files pc vol) p nm j) : ∀ x, ¬ Finds pc s1 t path (.ok x) := by
  have hi1 := R.inv (h.inv hc) ht
  have hin1 := R.alike.inited.trans hin
  rintro ⟨v, i⟩ f
  cases f with
  | @ok _ start _ l hs hm w =>
    cases hN with
    | @ok _ start' _ l' _ hs' hm' w' =>
      have := hs.det hc hi1 hin1 ht hs'; cases this
      generalize he : comps pc.sep l = cs at w w'
      cases w' with
      | @name cs _ _ hn w' =>
        have hv := hs.vol_lt hc hi1 hin1 ht
        rcases (C33_walk_append (hc.sys _ hv) (hc.posix _ hv) (hi1.reach _ hv) hm (by
          intro h0
          cases hs with
          | cwd a b c d e => obtain ⟨g, hg⟩ := (hi1.slot hin1 a _ e.1).mounted hm; rw [hg.1] at h0; cases h0
          | abs => obtain ⟨g, hg, _⟩ := root_dir (hc.sys _ hv) (hc.posix _ hv) (hi1.reach _ hv) hm; rw [hg.1] at h0; cases h0)).1 w with ⟨q, w1, w2⟩ | ⟨e, _, h0⟩
        · have := Walk.det (hc.sys _ hv) (hc.posix _ hv) (hi1.reach _ hv) hm w1 w'
          cases this
          cases w2 with
          | name _ h2 _ => exact hx _ h2
          | dot a _ _ => exact hn ⟨a, Or.inl rfl⟩
          | up a _ _ => exact hn ⟨a, Or.inr rfl⟩
        · cases h0

/-- **C33** After `red_mkdir` the path, which meant nothing before, means a new empty directory. -/
theorem C33_mkdir {path : List Byte} (hp : Permitted pc t (.mkdir path) s) (he : pexec pc t (.mkdir path) s = (.ok .unit, s')) :
    (∀ x, ¬ Finds pc s1 t path (.ok x)) ∧ ∃ vol i f, Finds pc s' t path (.ok (vol, i)) ∧ s.files pc vol i = none ∧ IsDir (s'.files pc vol) i f ∧ Empty (pc.conf vol) (s'.files pc vol) i := by
  obtain ⟨r0, hr, d⟩ := body_ok hc h hin R hp (by simp) he
  rcases d with ⟨e, hx, d⟩ | ⟨vol, p, nm, r1, hN, hr1, o, hh⟩
  · rw [d.1] at hr; cases hr
  subst hr1
  have hrel := o.rel
  unfold Rw at hrel
  split at hrel
  · rw [hrel.1] at hr; cases hr
  rcases r1 with e | i
  · cases hr
  have hF : s1.files pc vol = s.files pc vol := by unfold PSt.files; rw [R.alike.vols]
  have hnew := hrel.2.2.2.2.2.1
  have hb := hrel.2.2.2.2.2.2.2.2
  refine ⟨names_none hc h hin R hp.1 hN hrel.2.1, vol, i, _, names_added hc h hin R hp.1 o (bound_add hb hrel.2.1) (create_dirs hrel) hN
    ((hb.touched (p, nm, some i) (by simp) i).2 rfl), by rw [← hF]; exact hrel.2.2.2.1, ⟨hnew, rfl⟩, ?_⟩
  intro k
  have h0 : le32 (fun _ : Nat => (0#8 : Byte)) = 0 := by decide
  unfold entOf
  rw [hnew]
  dsimp only [AFile.new, if_pos]
  rw [if_pos (show (if true = true then modeDir else modeReg) = modeDir from rfl)]
  unfold entAt
  dsimp only
  rw [if_neg (fun hx => hx.2 h0)]

/-- **C33** After `red_unlink` or `red_rmdir` the path, which meant a file before, means nothing. -/
theorem C33_unlink {path : List Byte} (hk : k = .unlink path ∨ k = .rmdir path) (hp : Permitted pc t k s) (he : pexec pc t k s = (.ok .unit, s')) :
    (∃ x, Finds pc s1 t path (.ok x)) ∧ Finds pc s' t path (.error .enoent) := by
  have hni : k ≠ .init := by rintro rfl; rcases hk with h | h <;> cases h
  have hi1 := R.inv (h.inv hc) hp.1
  have hin1 := R.alike.inited.trans hin
  have hi' := reach' hc h hin R hp he
  have d0 := body_ok hc h hin R hp hni he
  obtain ⟨dir, r0, hr, d⟩ : ∃ dir r0, .ok .unit = r0.map (fun _ => PReply.unit) ∧ UnlinkDoes pc t path dir s1 r0 s' := by
    rcases hk with rfl | rfl
    · obtain ⟨r0, hr, d⟩ := d0; exact ⟨_, r0, hr, d⟩
    · obtain ⟨r0, hr, d⟩ := d0; exact ⟨_, r0, hr, d⟩
  rcases d with ⟨e, hx, d⟩ | ⟨vol, p, nm, hN, o, hh⟩
  · rw [d.1] at hr; cases hr
  have U : Unlink (pc.conf vol) p nm (s1.files pc vol) (.ok ()) (s'.files pc vol) := by
    have hrel := o.rel
    rcases hrel with ⟨e, _, h1, _⟩ | ⟨i, hi, ⟨_, _, h1, _⟩ | ⟨_, d⟩⟩
    · rw [h1] at hr; cases hr
    · rw [h1] at hr; cases hr
    · by_cases hH : Held pc s1 vol i
      · have := (d.1 hH).1; rw [this] at hr; cases hr
      · have d := d.2 hH
        split at d
        · rw [d.1] at hr; cases hr
        · rcases r0 with e | ⟨⟩
          · cases hr
          · exact d
  have hv := o.lt
  obtain ⟨i, f, hhas, hf, hemp, hi, hkept, ho, hb⟩ := id U
  have hnm := has_nameOk (hc.sys _ hv) (hc.posix _ hv) (hi1.reach _ hv) o.up hhas
  cases hN with
  | @ok _ start _ l _ hs hm w =>
    have hlive : s'.files pc vol start ≠ none := by
      have hs' := hs.congr (s' := s') o.slot
      intro h0
      generalize hx : Except.ok (ε := Err) (vol, start, l) = x at hs'
      cases hs' with
      | cwd a b c d e =>
        cases hx
        obtain ⟨g, hg⟩ := (hi'.slot (o.inited.trans hin1) a _ e.1).mounted o.up'
        have := hg.1.symm.trans h0; cases this
      | abs => cases hx; obtain ⟨g, hg, _⟩ := root_dir (hc.sys _ hv) (hc.posix _ hv) (hi'.reach _ hv) o.up'; have := hg.1.symm.trans h0; cases this
      | none_ => cases hx
    generalize hcs : comps pc.sep l = cs at w
    cases w with
    | @name cs _ _ hn w =>
      refine ⟨⟨(vol, i), .ok hs hm (by rw [hcs]; exact Walk.snoc w rfl hn hhas)⟩, .error (hs.congr o.slot) o.up' ?_⟩
      rw [hcs]
      rcases Walk.removed (hc.sys _ hv) (hc.posix _ hv) (hi'.reach _ hv) o.up' rfl (fun q n j hx => (has_nameOk (hc.sys _ hv) (hc.posix _ hv) (hi1.reach _ hv) o.up hx).max)
        (bound_remove hb) (unlink_dirs U) w rfl hlive with w' | w'
      · obtain ⟨_, f2, _, h2, _⟩ := hkept
        exact Walk.snoc_missing w' rfl hn h2 hnm.max (fun j hj => by have := (hb.touched (p, nm, none) (by simp) j).1 hj; cases this)
      · exact Walk.error_append w' rfl

/-- **C33** After `red_link` the new path, which meant nothing before, means the same file as the old one, which means what it meant. -/
theorem C33_link {path new : List Byte} (hp : Permitted pc t (.link path new) s) (he : pexec pc t (.link path new) s = (.ok .unit, s')) :
    (∀ x, ¬ Finds pc s1 t new (.ok x)) ∧ ∃ x, Finds pc s1 t path (.ok x) ∧ Finds pc s' t path (.ok x) ∧ Finds pc s' t new (.ok x) := by
  obtain ⟨r0, hr, d⟩ := body_ok hc h hin R hp (by simp) he
  rcases d with ⟨e, _, d⟩ | ⟨e, _, _, _, d⟩ | ⟨_, _, _, _, _, d⟩ | ⟨e, _, _, _, _, _, _, d⟩ | ⟨e, _, _, _, _, _, _, _, d⟩ | ⟨vol, i, p, nm, hF, hN, o, hh⟩
  · rw [d.1] at hr; cases hr
  · rw [d.1] at hr; cases hr
  · rw [d.1] at hr; cases hr
  · rw [d.1] at hr; cases hr
  · rw [d.1] at hr; cases hr
  have hrel := o.rel
  unfold Rw at hrel
  split at hrel
  · rw [hrel.1] at hr; cases hr
  rcases r0 with e | ⟨⟩
  · cases hr
  have L := hrel
  obtain ⟨_, hx, g, _, _, _, _, _, hb⟩ := hrel
  refine ⟨names_none hc h hin R hp.1 hN hx, (vol, i), hF, finds_mono hc h hin R hp.1 o (bound_add hb hx) (link_dirs L) hF,
    names_added hc h hin R hp.1 o (bound_add hb hx) (link_dirs L) hN ((hb.touched (p, nm, some i) (by simp) i).2 rfl)⟩

theorem existing {vol i mode : Nat} {ty : FType} {x : Int} (d : OpenExisting pc vol i mode ty s1 (.ok x) s') :
    (∃ R, OnVol pc vol s1 s' R) ∧ (∀ p n j, Has (pc.conf vol) (s1.files pc vol) p n j → Has (pc.conf vol) (s'.files pc vol) p n j) ∧
    (∀ j f, IsDir (s1.files pc vol) j f → ∃ f', IsDir (s'.files pc vol) j f' ∧ f'.parent = f.parent) ∧ ∃ dir, Opened pc s1 vol i mode dir (.ok x) s' := by
  have same : OnVol pc vol s1 s' (fun F F' => F' = F) → (∀ p n j, Has (pc.conf vol) (s1.files pc vol) p n j → Has (pc.conf vol) (s'.files pc vol) p n j) ∧
    (∀ j f, IsDir (s1.files pc vol) j f → ∃ f', IsDir (s'.files pc vol) j f' ∧ f'.parent = f.parent) := by
    intro o
    have e := o.rel
    rw [e]
    exact ⟨fun _ _ _ hx => hx, fun j f hf => ⟨f, hf, rfl⟩⟩
  rcases d with ⟨_, _, hx, _⟩ | ⟨_, _, hx, _⟩ | ⟨f, hf, _, _, _, o, op⟩ | ⟨f, r0, hf, _, _, _, o, ⟨_, _, hx, _⟩ | ⟨h0, op⟩⟩
  · cases hx
  · cases hx
  · exact ⟨⟨_, o⟩, (same o).1, (same o).2, _, op⟩
  · cases hx
  · subst h0
    have T := o.rel
    unfold Rw at T
    split at T
    · cases T.1
    obtain ⟨g, hg, _, e⟩ := T
    refine ⟨⟨_, o⟩, ?_, ?_, _, op⟩
    · rintro p n j ⟨kk, hk⟩
      refine ⟨kk, ?_⟩
      by_cases hpi : p = i
      · subst hpi
        rw [entOf_reg hg] at hk; cases hk
      · rw [← hk]; exact entOf_congr (by rw [e, RedFs.Files.set_other _ _ hpi]) kk
    · intro j fj hfj
      by_cases hpi : j = i
      · subst hpi
        have e1 := hg.1; rw [hfj.1] at e1; injection e1 with e1; subst e1
        exact (modes_ne (hfj.2.symm.trans hg.2)).elim
      · exact ⟨fj, ⟨by rw [e, RedFs.Files.set_other _ _ hpi]; exact hfj.1, hfj.2⟩, rfl⟩

/-- **C33** A file that has been opened, or has been created and opened, is the one that the path means. -/
theorem C33_open {path : List Byte} {mode : Nat} (hp : Permitted pc t (.open path mode) s) (he : pexec pc t (.open path mode) s = (.ok (.fd fd), s')) :
    ∃ j, Open pc s' fd j ∧ Finds pc s' t path (.ok ((s'.handle j).vol, (s'.handle j).ino)) ∧
      (mode.testBit 4 = false → Finds pc s1 t path (.ok ((s'.handle j).vol, (s'.handle j).ino))) := by
  have hi1 := R.inv (h.inv hc) hp.1
  have hin1 := R.alike.inited.trans hin
  obtain ⟨hm, -⟩ := PosixIo.C32_opened hc h hp he
  obtain ⟨r0, hr, d⟩ := body_ok hc h hin R hp (by simp) he
  have hf0 : r0 = .ok fd := by
    rcases r0 with e | x
    · cases hr
    · injection hr with hr; injection hr with hr; rw [hr]
  subst hf0
  have d1 := d.1 hm
  obtain ⟨hg, ⟨_, hx, _⟩ | ⟨vol', i', dir', _, _, _, _, hi0, _, _, j, hj, hz, hfst, hfd, hh⟩⟩ := fildesOpen_handles hc hi1 d1
  · cases hx
  have ej : s'.handle j = _ := (congrFun hh j).trans (upd_same _ _ _)
  have hopen : Open pc s' fd j := by
    refine ⟨(fildesOpen_inited d1).trans hin1, hj, by rw [ej]; exact hi0, ?_⟩
    have hfd := Except.ok.inj hfd
    rw [hfd, ej]; unfold PSt.fd; rw [hg]
  have hop : ∀ {vol i dir}, Opened pc s1 vol i mode dir (.ok fd) s' → (s'.handle j).vol = vol ∧ (s'.handle j).ino = i := by
    rintro vol i dir ⟨k0, hk0, hz0, hfst0, _, hh0⟩
    have e : k0 = j := by
      rcases Nat.lt_trichotomy k0 j with hl | hl | hl
      · exact absurd hz0 (hfst k0 hl)
      · exact hl
      · exact absurd hz (hfst0 j hl)
    subst e
    have : s'.handle k0 = _ := (congrFun hh0 k0).trans (upd_same _ _ _)
    rw [this]; exact ⟨rfl, rfl⟩
  refine ⟨j, hopen, ?_⟩
  obtain ⟨_, _, _, _, b4, _⟩ := has_bits mode
  rcases d1 with ⟨e, _, d1⟩ | ⟨vol, start, l, hs, d1⟩
  · cases d1.1
  by_cases hro : (s1.vols vol).readOnly = true ∧ mode ≠ oRdonly
  · cases (d1.1 hro).1
  have d1 := d1.2 hro
  by_cases hfull : ∀ k, k < pc.handles → (s1.handle k).ino ≠ 0
  · cases (d1.1 hfull).1
  have d1 := d1.2 hfull
  by_cases hcr : has mode oCreat = true
  · have d1 := d1.1 hcr
    refine ⟨?_, fun hx => by rw [← b4, hcr] at hx; cases hx⟩
    rcases d1 with ⟨e, _, d1⟩ | ⟨p, nm, hN, ⟨i, o, op⟩ | ⟨_, hx, _⟩ | ⟨i, _, hhas, d1⟩⟩
    · cases d1.1
    · have C := o.rel
      have hb := C.2.2.2.2.2.2.2.2
      rw [(hop op).1, (hop op).2]
      exact names_added hc h hin R hp.1 o (bound_add hb C.2.1) (create_dirs C) hN ((hb.touched (p, nm, some i) (by simp) i).2 rfl)
    · cases hx
    · obtain ⟨⟨_, o⟩, h1, h2, _, op⟩ := existing hc h hin R d1
      rw [(hop op).1, (hop op).2]
      exact names_added hc h hin R hp.1 o h1 h2 hN (h1 _ _ _ hhas)
  · have d1 := d1.2 hcr
    rcases d1 with ⟨e, _, d1⟩ | ⟨i, hF, d1⟩
    · cases d1.1
    · obtain ⟨⟨_, o⟩, h1, h2, _, op⟩ := existing hc h hin R d1
      rw [(hop op).1, (hop op).2]
      exact ⟨finds_mono hc h hin R hp.1 o h1 h2 hF, fun _ => hF⟩

/-- **C33** A path that cannot be found: it cannot be opened, and the error is the one that following it leads to. -/
theorem C33_open_error {path : List Byte} {e : Err} (hp : Permitted pc t (.open path 1) s) (hF : Finds pc s1 t path (.error e)) (hfree : ∃ k, k < pc.handles ∧ (s.handle k).ino = 0) :
    (pexec pc t (.open path 1) s).1 = .error e ∧ Unchanged pc s (pexec pc t (.open path 1) s).2 := by
  obtain ⟨s2, d, a2⟩ := call_body hc h hp (by simp) hin id R
  have hi1 := R.inv (h.inv hc) hp.1
  have a1 := R.alike
  have hin1 := a1.inited.trans hin
  generalize (pexec pc t (.open path 1) s).1 = r at *
  generalize (pexec pc t (.open path 1) s).2 = s' at *
  obtain ⟨r0, hr, d⟩ := d
  have fin : ∀ {e'}, Fails pc s1 r0 s2 e' → e' = e → r = .error e ∧ Unchanged pc s s' := by
    intro e' hf he
    subst he
    exact ⟨by rw [hr, hf.1]; rfl, unchanged_of a1 hf.2 a2⟩
  rcases d.1 (PosixIo.demo_mode (Or.inl rfl)) with ⟨e', hx, d⟩ | ⟨vol, start, l, hs, d⟩
  · have := Finds.det hc hi1 hin1 hp.1 hF (.start hx); injection this with this
    exact fin d this.symm
  have d := (d.2 (fun hx => hx.2 rfl)).2 (fun hx => by obtain ⟨k, hk, hz⟩ := hfree; exact hx k hk (a1.handle ▸ hz))
  rcases d.2 (by decide) with ⟨e', hx, d⟩ | ⟨i, hx, _⟩
  · have := Finds.det hc hi1 hin1 hp.1 hF hx; injection this with this
    exact fin d this.symm
  · have := Finds.det hc hi1 hin1 hp.1 hF hx; cases this

/-- **C33** `red_chdir` makes the directory that the path means the current one; or it fails as following the path does. -/
theorem C33_chdir {path : List Byte} (hp : Permitted pc t (.chdir path) s) :
    (∀ e, Finds pc s1 t path (.error e) → (pexec pc t (.chdir path) s).1 = .error e ∧ Unchanged pc s (pexec pc t (.chdir path) s).2) ∧
    ∀ vol i, Finds pc s1 t path (.ok (vol, i)) →
      ((∃ f, IsReg (s.files pc vol) i f) → (pexec pc t (.chdir path) s).1 = .error .enotdir ∧ Unchanged pc s (pexec pc t (.chdir path) s).2) ∧
      ((∃ f, IsDir (s.files pc vol) i f) → (pexec pc t (.chdir path) s).1 = .ok .unit ∧ Unchanged pc s (pexec pc t (.chdir path) s).2 ∧
        ∀ j, SlotOf pc t s1 j → ((pexec pc t (.chdir path) s).2.slot j).cwdVol = vol ∧ ((pexec pc t (.chdir path) s).2.slot j).cwdIno = i) := by
  obtain ⟨s2, d, a2⟩ := call_body hc h hp (by simp) hin id R
  have hi1 := R.inv (h.inv hc) hp.1
  have a1 := R.alike
  have hin1 := a1.inited.trans hin
  generalize (pexec pc t (.chdir path) s).1 = r at *
  generalize (pexec pc t (.chdir path) s).2 = s' at *
  obtain ⟨r0, hr, d⟩ := d
  have fin : ∀ {e' e}, Fails pc s1 r0 s2 e' → e' = e → r = .error e ∧ Unchanged pc s s' := by
    intro e' e hf he
    subst he
    exact ⟨by rw [hr, hf.1]; rfl, unchanged_of a1 hf.2 a2⟩
  refine ⟨fun e hF => ?_, fun vol i hF => ?_⟩
  · rcases d with ⟨e', hx, d⟩ | ⟨vol, i, hx, _⟩
    · have := Finds.det hc hi1 hin1 hp.1 hF hx; injection this with this
      exact fin d this.symm
    · have := Finds.det hc hi1 hin1 hp.1 hF hx; cases this
  · have hv := (Finds.at hc hi1 hin1 hp.1 hF).1
    have hF' : s1.files pc vol = s.files pc vol := by unfold PSt.files; rw [a1.vols]
    rcases d with ⟨e', hx, d⟩ | ⟨vol', i', hx, d⟩
    · have := Finds.det hc hi1 hin1 hp.1 hF hx; cases this
    have := Finds.det hc hi1 hin1 hp.1 hF hx; cases this
    rw [hF'] at d
    rcases d with ⟨hk, d⟩ | ⟨hk, hr0, j, hj, q⟩
    · refine ⟨fun _ => fin d rfl, fun ⟨f, hf⟩ => ?_⟩
      obtain ⟨g, hg⟩ := hk
      exact (reg_not_dir (hc.sys _ hv) (hc.posix _ hv) hg hf).elim
    · refine ⟨fun ⟨g, hg⟩ => ?_, fun _ => ⟨by rw [hr, hr0]; rfl, ?_, fun j' hj' => ?_⟩⟩
      · obtain ⟨f, hf⟩ := hk
        exact (reg_not_dir (hc.sys _ hv) (hc.posix _ hv) hg hf).elim
      · refine ⟨by rw [a2.handle, q.handle]; exact a1.handle, fun v hv => ?_⟩
        have := q.vols v hv
        have e : (s1.setSlot j { s1.slot j with cwdVol := vol, cwdIno := i }).vols v = s.vols v := congrFun a1.vols v
        rw [e] at this
        unfold PSt.files; rw [a2.vols]
        exact ⟨this.mounted, this.files⟩
      · have e := SlotOf.uniq hi1 hin1 hp.1 hj' hj
        subst e
        rw [a2.cwdVol, a2.cwdIno, q.slot]
        have : (s1.setSlot j' { s1.slot j' with cwdVol := vol, cwdIno := i }).slot j' = _ := upd_same _ _ _
        rw [this]; exact ⟨rfl, rfl⟩


/-! ### The volumes of a call -/

/-- Volume `i` is as it was. -/
def VolKept (pc : PConf) (i : Nat) (s s' : PSt) : Prop :=
  (s'.vols i).mounted = (s.vols i).mounted ∧ (s'.vols i).readOnly = (s.vols i).readOnly ∧ (s'.vols i).transMask = (s.vols i).transMask ∧
  ((s.vols i).mounted = true → s'.files pc i = s.files pc i ∧ committedFiles (pc.conf i) (s'.vols i) = committedFiles (pc.conf i) (s.vols i))

/-- **C34** A call with a path acts on the volume of the path, and on no other. -/
theorem C34_other_volumes {path l : List Byte} {vol start i : Nat} (hp : Permitted pc t k s) (hk : (paths k).head? = some path) (hs : StartAt pc s1 t path (.ok (vol, start, l)))
    (hi : i < pc.n) (hne : i ≠ vol) : VolKept pc i s (pexec pc t k s).2 := by
  have hni : k ≠ .init := by rintro rfl; cases hk
  have hb : ¬ k.Bad := by cases k <;> first | exact id | cases hk
  obtain ⟨s2, d, a2⟩ := call_body hc h hp hni hin hb R
  have hi1 := R.inv (h.inv hc) hp.1
  have a1 := R.alike
  have hin1 := a1.inited.trans hin
  generalize (pexec pc t k s).1 = r at *
  generalize (pexec pc t k s).2 = s' at *
  have sm : Same (pc.conf i) (s1.vols i) (s2.vols i) → VolKept pc i s s' := by
    intro q
    unfold VolKept PSt.files
    rw [a2.vols, ← a1.vols]
    exact ⟨q.mounted, q.ro, q.mask, fun hm => ⟨q.files hm, q.disk hm⟩⟩
  have fl : ∀ {α : Type} {r0 : Except Err α} {e : Err}, Fails pc s1 r0 s2 e → VolKept pc i s s' := fun hf => sm (hf.2.vols i hi)
  have on : ∀ {v Q}, v = vol → OnVol pc v s1 s2 Q → VolKept pc i s s' := fun e o => sm (o.others i hi (e ▸ hne))
  have nm : ∀ {re v p n}, Names pc s1 t path re (.ok (v, p, n)) → v = vol := fun hx => by
    cases hx with | ok hx => have := hx.det hc hi1 hin1 hp.1 hs; cases this; rfl
  have fd : ∀ {v j}, Finds pc s1 t path (.ok (v, j)) → v = vol := fun hx => by
    cases hx with | ok hx => have := hx.det hc hi1 hin1 hp.1 hs; cases this; rfl
  have op : ∀ {mode ty r0}, FildesOpenDoes pc t path mode ty s1 r0 s2 → VolKept pc i s s' := by
    intro mode ty r0 d
    rcases d with ⟨e, _, d⟩ | ⟨v, st, l', hs', d⟩
    · exact fl d
    have hv : v = vol := by have := hs'.det hc hi1 hin1 hp.1 hs; cases this; rfl
    by_cases hro : (s1.vols v).readOnly = true ∧ mode ≠ oRdonly
    · exact fl (d.1 hro)
    have d := d.2 hro
    by_cases hfull : ∀ k, k < pc.handles → (s1.handle k).ino ≠ 0
    · exact fl (d.1 hfull)
    have d := d.2 hfull
    have ex : ∀ {j}, OpenExisting pc v j mode ty s1 r0 s2 → VolKept pc i s s' := by
      rintro j (⟨_, _, _, o, _⟩ | ⟨_, _, _, o, _⟩ | ⟨_, _, _, _, _, o, _⟩ | ⟨_, _, _, _, _, _, o, _⟩) <;> exact on hv o
    by_cases hcr : has mode oCreat = true
    · rcases d.1 hcr with ⟨e, _, d⟩ | ⟨p, n, hN, ⟨j, o, _⟩ | ⟨_, _, _, o, _⟩ | ⟨j, _, _, d⟩⟩
      · exact fl d
      · exact on hv o
      · exact on hv o
      · exact ex d
    · rcases d.2 hcr with ⟨e, _, d⟩ | ⟨j, _, d⟩
      · exact fl d
      · exact ex d
  cases k with
  | «open» p mode =>
    injection hk with e; subst e; obtain ⟨r0, hr, d⟩ := d
    by_cases hm : ModeOk mode
    · exact op (d.1 hm)
    · exact fl (d.2 hm)
  | unlink p =>
    injection hk with e; subst e; obtain ⟨r0, hr, d⟩ := d
    rcases d with ⟨e, hx, d⟩ | ⟨_, _, _, hx, o, _⟩
    · exact fl d
    · exact on (nm hx) o
  | mkdir p =>
    injection hk with e; subst e; obtain ⟨r0, hr, d⟩ := d
    rcases d with ⟨e, hx, d⟩ | ⟨_, _, _, _, hx, _, o, _⟩
    · exact fl d
    · exact on (nm hx) o
  | rmdir p =>
    injection hk with e; subst e; obtain ⟨r0, hr, d⟩ := d
    rcases d with ⟨e, hx, d⟩ | ⟨_, _, _, hx, o, _⟩
    · exact fl d
    · exact on (nm hx) o
  | rename p q =>
    injection hk with e; subst e; obtain ⟨r0, hr, d⟩ := d
    rcases d with ⟨_, _, d⟩ | ⟨_, _, _, _, d⟩ | ⟨_, _, _, _, _, d⟩ | ⟨_, _, _, _, _, _, _, d⟩ | ⟨_, _, _, _, _, _, _, _, d⟩ | ⟨_, _, _, _, _, hx, _, ⟨_, _, _, _, d⟩ | ⟨_, _, _, _, d⟩ | ⟨_, o, _⟩⟩
    all_goals first | exact fl d | exact on (nm hx) o
  | link p q =>
    injection hk with e; subst e; obtain ⟨r0, hr, d⟩ := d
    rcases d with ⟨_, _, d⟩ | ⟨_, _, _, _, d⟩ | ⟨_, _, _, _, _, d⟩ | ⟨_, _, _, _, _, _, _, d⟩ | ⟨_, _, _, _, _, _, _, _, d⟩ | ⟨_, _, _, _, hx, _, o, _⟩
    all_goals first | exact fl d | exact on (fd hx) o
  | opendir p =>
    injection hk with e; subst e; obtain ⟨r0, hr, r1, d, _⟩ := d
    exact op d
  | chdir p =>
    injection hk with e; subst e; obtain ⟨r0, hr, d⟩ := d
    rcases d with ⟨e, hx, d⟩ | ⟨_, _, hx, ⟨_, d⟩ | ⟨_, _, j, _, q⟩⟩
    · exact fl d
    · exact fl d
    · exact sm (q.vols i hi)
  | _ => cases hk

/-- **C34** `red_rename` and `red_link` do not work across volumes. -/
theorem C34_exdev {path new : List Byte} {x y : Nat × Nat × List Byte} (hk : k = .rename path new ∨ k = .link path new) (hp : Permitted pc t k s)
    (hx : StartAt pc s1 t path (.ok x)) (hy : StartAt pc s1 t new (.ok y)) (hne : x.1 ≠ y.1) :
    (pexec pc t k s).1 = .error .exdev ∧ Unchanged pc s (pexec pc t k s).2 := by
  have hni : k ≠ .init := by rintro rfl; rcases hk with h | h <;> cases h
  have hb : ¬ k.Bad := by rcases hk with rfl | rfl <;> exact id
  obtain ⟨s2, d, a2⟩ := call_body hc h hp hni hin hb R
  have hi1 := R.inv (h.inv hc) hp.1
  have a1 := R.alike
  have hin1 := a1.inited.trans hin
  generalize (pexec pc t k s).1 = r at *
  generalize (pexec pc t k s).2 = s' at *
  have no1 : ∀ {e}, ¬ StartAt pc s1 t path (.error e) := fun hz => by have := hz.det hc hi1 hin1 hp.1 hx; cases this
  have no2 : ∀ {e}, ¬ StartAt pc s1 t new (.error e) := fun hz => by have := hz.det hc hi1 hin1 hp.1 hy; cases this
  have ab : ∀ {x' y'}, StartAt pc s1 t path (.ok x') → StartAt pc s1 t new (.ok y') → x'.1 = y'.1 → False := fun h1 h2 h3 => by
    have e1 := h1.det hc hi1 hin1 hp.1 hx; have e2 := h2.det hc hi1 hin1 hp.1 hy
    cases e1; cases e2; exact hne h3
  have nm : ∀ {re v p n}, Names pc s1 t new re (.ok (v, p, n)) → y.1 = v := fun hz => by
    cases hz with | ok hz => have := hz.det hc hi1 hin1 hp.1 hy; cases this; rfl
  rcases hk with rfl | rfl
  · obtain ⟨r0, hr, d⟩ := d
    rcases d with ⟨_, hz, d⟩ | ⟨_, _, _, hz, d⟩ | ⟨_, _, _, _, _, d⟩ | ⟨_, _, _, h1, h2, h3, _, d⟩ | ⟨_, _, _, h1, h2, h3, _, _, d⟩ | ⟨v, _, _, _, _, h1, h2, _⟩
    · exact absurd hz no1
    · exact absurd hz no2
    · exact ⟨by rw [hr, d.1]; rfl, unchanged_of a1 d.2 a2⟩
    · exact (ab h1 h2 h3).elim
    · exact (ab h1 h2 h3).elim
    · cases h1 with | ok h1 => have := h1.det hc hi1 hin1 hp.1 hx; cases this; exact absurd (nm h2).symm hne
  · obtain ⟨r0, hr, d⟩ := d
    rcases d with ⟨_, hz, d⟩ | ⟨_, _, _, hz, d⟩ | ⟨_, _, _, _, _, d⟩ | ⟨_, _, _, h1, h2, h3, _, d⟩ | ⟨_, _, _, h1, h2, h3, _, _, d⟩ | ⟨v, _, _, _, h1, h2, _⟩
    · exact absurd hz no1
    · exact absurd hz no2
    · exact ⟨by rw [hr, d.1]; rfl, unchanged_of a1 d.2 a2⟩
    · exact (ab h1 h2 h3).elim
    · exact (ab h1 h2 h3).elim
    · cases h1 with | ok h1 => have := h1.det hc hi1 hin1 hp.1 hx; cases this; exact absurd (nm h2).symm hne

/-- **C34** A call with the name of a volume acts on no other volume; if there is no volume with this name it fails with `ENOENT` (`red_umount2`: if its flags are legal) and changes nothing. -/
theorem C34_volume_calls {path : List Byte} (hp : Permitted pc t k s) (hk : volArg k = some path) :
    ((∀ i, ¬ VolName pc path i) → (∀ flags, k = .umount path flags → flags ≤ 1) → (pexec pc t k s).1 = .error .enoent ∧ Unchanged pc s (pexec pc t k s).2) ∧
    ∀ vol i, VolName pc path vol → i < pc.n → i ≠ vol → VolKept pc i s (pexec pc t k s).2 := by
  have hni : k ≠ .init := by rintro rfl; cases hk
  have hb : ¬ k.Bad := by cases k <;> first | exact id | cases hk
  obtain ⟨s2, d, a2⟩ := call_body hc h hp hni hin hb R
  have a1 := R.alike
  generalize (pexec pc t k s).1 = r at *
  generalize (pexec pc t k s).2 = s' at *
  have sm : ∀ {i}, Same (pc.conf i) (s1.vols i) (s2.vols i) → VolKept pc i s s' := by
    intro i q
    unfold VolKept PSt.files
    rw [a2.vols, ← a1.vols]
    exact ⟨q.mounted, q.ro, q.mask, fun hm => ⟨q.files hm, q.disk hm⟩⟩
  have eq : ∀ {i}, s2.vols i = s1.vols i → VolKept pc i s s' := by
    intro i e
    apply sm
    rw [e]; exact Same.refl _ _
  have fl : ∀ {α : Type} {r0 : Except Err α} {e : Err} {i}, i < pc.n → Fails pc s1 r0 s2 e → VolKept pc i s s' := fun hi hf => sm (hf.2.vols _ hi)
  have fin : ∀ {α : Type} {r0 : Except Err α} {f : α → PReply}, Fails pc s1 r0 s2 .enoent → r = r0.map f → r = .error .enoent ∧ Unchanged pc s s' := by
    intro α r0 f hf hr
    exact ⟨by rw [hr, hf.1]; rfl, unchanged_of a1 hf.2 a2⟩
  have key : ∀ {A : Prop} {P : Nat → Prop}, ((∀ i, ¬ VolName pc path i) ∧ A) ∨ (∃ i, VolName pc path i ∧ P i) → ((∀ i, ¬ VolName pc path i) → A) ∧
      ∀ vol, VolName pc path vol → P vol := by
    rintro A P (⟨h1, h2⟩ | ⟨i, h1, h2⟩)
    · exact ⟨fun _ => h2, fun v hv => absurd hv (h1 v)⟩
    · exact ⟨fun hn => absurd h1 (hn i), fun v hv => by rw [hv.uniq hc h1]; exact h2⟩
  cases k with
  | mount p fl0 =>
    injection hk with e; subst e; obtain ⟨r0, hr, d⟩ := d
    have d := key d
    refine ⟨fun hn _ => fin (d.1 hn) hr, fun vol i hv hi hne => ?_⟩
    rcases d.2 vol hv with ⟨_, d⟩ | ⟨_, _, d⟩ | ⟨_, _, d, _⟩
    · exact fl hi d
    · exact fl hi d
    · exact eq (d.2 i hne)
  | umount p fl0 =>
    injection hk with e; subst e; obtain ⟨r0, hr, d⟩ := d
    rcases d with ⟨h2, d⟩ | ⟨h2, hn, d⟩ | ⟨v, hv, _, d⟩
    · exact ⟨fun _ hf => absurd (hf _ rfl) (by omega), fun vol i _ hi _ => fl hi d⟩
    · exact ⟨fun _ _ => fin d hr, fun vol i _ hi _ => fl hi d⟩
    · refine ⟨fun hn => absurd hv (hn v), fun vol i hv' hi hne => ?_⟩
      rw [hv'.uniq hc hv] at hne
      rcases d with ⟨_, d⟩ | ⟨_, _, _, d⟩ | ⟨_, _, _, d, _⟩
      · exact fl hi d
      · exact fl hi d
      · exact eq (d.2 i hne)
  | format p =>
    injection hk with e; subst e; obtain ⟨r0, hr, d⟩ := d
    have d := key d
    refine ⟨fun hn _ => fin (d.1 hn) hr, fun vol i hv hi hne => ?_⟩
    rcases d.2 vol hv with ⟨_, d⟩ | ⟨_, _, d, _⟩
    · exact fl hi d
    · exact eq (d i hne)
  | transact p =>
    injection hk with e; subst e; obtain ⟨r0, hr, d⟩ := d
    have d := key d
    exact ⟨fun hn _ => fin (d.1 hn) hr, fun vol i hv hi hne => eq ((d.2 vol hv).1.2 i hne)⟩
  | rollback p =>
    injection hk with e; subst e; obtain ⟨r0, hr, d⟩ := d
    have d := key d
    refine ⟨fun hn _ => fin (d.1 hn) hr, fun vol i hv hi hne => ?_⟩
    rcases d.2 vol hv with ⟨_, d⟩ | ⟨_, d, _⟩
    · exact fl hi d
    · exact eq (d.2 i hne)
  | setMask p m =>
    injection hk with e; subst e; obtain ⟨r0, hr, d⟩ := d
    have d := key d
    exact ⟨fun hn _ => fin (d.1 hn) hr, fun vol i hv hi hne => eq ((d.2 vol hv).1.2 i hne)⟩
  | getMask p =>
    injection hk with e; subst e; obtain ⟨r0, hr, d⟩ := d
    have d := key d
    exact ⟨fun hn _ => fin (d.1 hn) hr, fun vol i hv hi hne => eq ((d.2 vol hv).1.2 i hne)⟩
  | statvfs p =>
    injection hk with e; subst e; obtain ⟨r0, hr, d⟩ := d
    have d := key d
    exact ⟨fun hn _ => fin (d.1 hn) hr, fun vol i hv hi hne => eq ((d.2 vol hv).1.2 i hne)⟩
  | _ => cases hk

end

section
open PosixUse PosixIo

theorem demo_start {path : List Byte} (h : ¬ ∃ r, path = [47#8, 109#8] ++ r) (hs : path.head? = some 47#8) {s : PSt} : StartAt demoPC s 5 path (.ok (0, 2, path)) :=
  .abs (i := 0) (fun _ _ => Or.inr hs) (demo_vol0' h)

theorem demo_not_m {x : Byte} {l : List Byte} (hx : x ≠ 109#8) : ¬ ∃ r, 47#8 :: x :: l = [47#8, 109#8] ++ r := by
  rintro ⟨r, hr⟩; injection hr with _ hr; injection hr with hr; exact hx hr

theorem demo_start_m {l : List Byte} {s : PSt} : StartAt demoPC s 5 (47#8 :: 109#8 :: 47#8 :: l) (.ok (1, 2, 47#8 :: l)) :=
  .abs (i := 1) (fun _ _ => Or.inr rfl) ⟨by decide, Or.inr (Or.inr ⟨l, rfl⟩), fun j hj _ => by
    have hj : j < 2 := hj
    show (if j = 0 then ([] : List Byte) else [47#8, 109#8]).length ≤ 2
    split <;> decide⟩

-- "/a" and "//a/"
example : ∀ x, Finds demoPC demoS 5 [47#8, 97#8] x ↔ Finds demoPC demoS 5 [47#8, 47#8, 97#8, 47#8] x :=
  (C33_spelling demoPC_ok demoS_reach demo_inited demo_reg (by decide) (demo_start (demo_not_m (by decide)) rfl) (demo_start (demo_not_m (by decide)) rfl) (by decide)).1

-- "/a/./../d/x"
example : comps 47#8 [47#8, 97#8, 47#8, 46#8, 47#8, 46#8, 46#8, 47#8, 100#8, 47#8, 47#8, 120#8] = [[97#8], [46#8], [46#8, 46#8], [100#8], [120#8]] := by decide

theorem demo_mkdir : isUnit (pexec demoPC 5 (.mkdir [120#8]) demoS).1 = true := by decide +kernel
def demoT : PSt := (pexec demoPC 5 (.mkdir [120#8]) demoS).2
theorem demoT_reach : PReach demoPC demoT := demoS_reach.call (demoP (by decide) rfl _)
theorem demoT_inited : demoT.inited = true := by decide +kernel
theorem demoT_reg : Registers demoPC 5 demoT demoT := .old (i := 0) (by decide) (by decide) (by decide +kernel)
-- the relative path "x"
example : ∃ vol i f, Finds demoPC (pexec demoPC 5 (.mkdir [120#8]) demoS).2 5 [120#8] (.ok (vol, i)) ∧ demoS.files demoPC vol i = none ∧
    IsDir ((pexec demoPC 5 (.mkdir [120#8]) demoS).2.files demoPC vol) i f ∧ Empty (demoPC.conf vol) ((pexec demoPC 5 (.mkdir [120#8]) demoS).2.files demoPC vol) i :=
  (C33_mkdir demoPC_ok demoS_reach demo_inited demo_reg (demoP (by decide) rfl _) (pexec_eta (t := 5) (k := .mkdir [120#8]) (s := demoS) (isUnit_eq demo_mkdir))).2
theorem demo_rmdir : isUnit (pexec demoPC 5 (.rmdir [120#8]) demoT).1 = true := by decide +kernel
example : Finds demoPC (pexec demoPC 5 (.rmdir [120#8]) demoT).2 5 [120#8] (.error .enoent) :=
  (C33_unlink demoPC_ok demoT_reach demoT_inited demoT_reg (k := .rmdir [120#8]) (Or.inr rfl) (demoP (by decide) rfl _) (pexec_eta (isUnit_eq demo_rmdir))).2
theorem demo_link : isUnit (pexec demoPC 5 (.link [47#8, 97#8] [99#8]) demoS).1 = true := by decide +kernel
example : ∃ x, Finds demoPC (pexec demoPC 5 (.link [47#8, 97#8] [99#8]) demoS).2 5 [99#8] (.ok x) :=
  let ⟨_, x, _, _, h⟩ := C33_link demoPC_ok demoS_reach demo_inited demo_reg (demoP (by decide) rfl _) (pexec_eta (t := 5) (k := .link [47#8, 97#8] [99#8]) (s := demoS) (isUnit_eq demo_link))
  ⟨x, h⟩
theorem demo_open : isFd 1048578 (pexec demoPC 5 (.open [47#8, 97#8] 1) demoS).1 = true := by decide +kernel
theorem demo_creat : isFd 1048578 (pexec demoPC 5 (.open [99#8] 18) demoS).1 = true := by decide +kernel
example : ∃ j, Open demoPC (pexec demoPC 5 (.open [47#8, 97#8] 1) demoS).2 1048578 j :=
  let ⟨j, h, _⟩ := C33_open demoPC_ok demoS_reach demo_inited demo_reg (demoP (by decide) rfl _) (pexec_eta (t := 5) (k := .open [47#8, 97#8] 1) (s := demoS) (isFd_eq demo_open))
  ⟨j, h⟩
example : ∃ j, Open demoPC (pexec demoPC 5 (.open [99#8] 18) demoS).2 1048578 j :=
  let ⟨j, h, _⟩ := C33_open demoPC_ok demoS_reach demo_inited demo_reg (demoP (by decide) rfl _) (pexec_eta (t := 5) (k := .open [99#8] 18) (s := demoS) (isFd_eq demo_creat))
  ⟨j, h⟩
theorem demo_finds_c : Finds demoPC demoS 5 [47#8, 99#8] (.error .enoent) := by
  obtain ⟨f, hf⟩ := map_some' demo_dir_2
  exact .error (demo_start (demo_not_m (by decide)) rfl) demo_up (by
    rw [show comps demoPC.sep [47#8, 99#8] = [[99#8]] by decide]
    exact .missing (fun hx => absurd hx.2 (by unfold Dotty; decide)) hf (by decide) (no_name ((demoS_reach.inv demoPC_ok).reach 0 (by decide)) demo_up demo_lookup))
example : (pexec demoPC 5 (.open [47#8, 99#8] 1) demoS).1 = .error .enoent :=
  (C33_open_error demoPC_ok demoS_reach demo_inited demo_reg (demoP (by decide) rfl _) demo_finds_c demo_free).1
example : (pexec demoPC 5 (.chdir [47#8, 99#8]) demoS).1 = .error .enoent :=
  ((C33_chdir demoPC_ok demoS_reach demo_inited demo_reg (demoP (by decide) rfl _)).1 _ demo_finds_c).1
example : (pexec demoPC 5 (.chdir [47#8, 97#8]) demoS).1 = .error .enotdir :=
  (((C33_chdir demoPC_ok demoS_reach demo_inited demo_reg (demoP (by decide) rfl _)).2 _ _ demo_find_a).1 (map_some' demo_mode_a)).1

-- other volumes
example : VolKept demoPC 1 demoS (pexec demoPC 5 (.mkdir [47#8, 120#8]) demoS).2 :=
  C34_other_volumes demoPC_ok demoS_reach demo_inited demo_reg (k := .mkdir [47#8, 120#8]) (demoP (by decide) rfl _) rfl (demo_start (demo_not_m (by decide)) rfl) (by decide) (by decide)
example : (pexec demoPC 5 (.rename [47#8, 97#8] [47#8, 109#8, 47#8, 99#8]) demoS).1 = .error .exdev :=
  (C34_exdev demoPC_ok demoS_reach demo_inited demo_reg (Or.inl rfl) (demoP (by decide) rfl _) (demo_start (demo_not_m (by decide)) rfl) demo_start_m (by decide)).1
example : VolKept demoPC 1 demoS (pexec demoPC 5 (.transact []) demoS).2 :=
  (C34_volume_calls demoPC_ok demoS_reach demo_inited demo_reg (k := .transact []) (demoP (by decide) rfl _) rfl).2 0 1 demo_vol0 (by decide) (by decide)
example : (pexec demoPC 5 (.transact [120#8]) demoS).1 = .error .enoent := by
  refine ((C34_volume_calls demoPC_ok demoS_reach demo_inited demo_reg (k := .transact [120#8]) (demoP (by decide) rfl _) rfl).1 ?_ (by simp)).1
  rintro i ⟨⟨hi, hm, _⟩, he⟩
  have hi : i < 2 := hi
  rcases Nat.lt_or_ge i 1 with h1 | h1
  · rw [show i = 0 by omega] at he; exact absurd he (by decide)
  · rw [show i = 1 by omega] at hm
    rcases hm with hm | hm | ⟨r, hm⟩
    · cases hm
    · injection hm with hm; exact absurd hm (by decide)
    · injection hm with hm; exact absurd hm (by decide)
example : ∃ i, Selected demoPC [47#8, 109#8, 47#8, 98#8] i := C34_exists.1 ⟨0, by decide, Or.inl rfl⟩

/-- One volume, "/m". -/
def onePC : PConf := { demoPC with n := 1, pre := fun _ => [47#8, 109#8] }
theorem onePC_ok : onePC.Ok :=
  ⟨by decide, by decide, by decide, fun _ _ => demo_sys, fun _ _ => rfl, fun _ _ => rfl, fun _ _ => rfl, fun _ _ => strB_ok rfl, fun i j hi hj _ => by
    have hi : i < 1 := hi
    have hj : j < 1 := hj
    omega⟩
def oneS : PSt := (pexec onePC 5 .init demoS0).2
theorem one_start {v : Vol} (h : Reach demoConf v) (hm : v.mounted = false) : PStart onePC (startS v) := ⟨rfl, fun _ => rfl, rfl, fun _ _ => h, fun _ _ => hm⟩
theorem one_init {s : PSt} (h : PStart onePC s) : PReach onePC (pexec onePC 5 .init s).2 := PReach.call ⟨s, [], h, .nil⟩ (permitted_of rfl (by decide) rfl _)
theorem oneS_reach : PReach onePC oneS := one_init (s := demoS0) (one_start (v := freshVol demoConf) (fresh_reach demoConf) fresh_down)
theorem one_reg : ∃ s1, Registers onePC 5 oneS s1 := ⟨_, .new (i := 0) (by decide) (fun j hj => by
    have hj : j < 2 := hj
    rcases (show j = 0 ∨ j = 1 by omega) with rfl | rfl
    · decide +kernel
    · decide +kernel) (by decide) (by decide +kernel) (fun j hj => by omega)⟩
-- the path "/x" is on no volume
example : (pexec onePC 5 (.mkdir [47#8, 120#8]) oneS).1 = .error .enoent := by
  obtain ⟨s1, R⟩ := one_reg
  refine (C34_enoent onePC_ok oneS_reach (by decide +kernel) R (permitted_of rfl (by decide) rfl _) rfl (by simp) (path := [47#8, 120#8]) (fun h => h.2.2.2 rfl) ?_).1
  rintro i ⟨_, hm, _⟩
  rcases hm with hm | hm | ⟨r, hm⟩
  · cases hm
  · injection hm with _ hm; injection hm with hm; exact absurd hm (by decide)
  · injection hm with _ hm; injection hm with hm; exact absurd hm (by decide)

end

end RedFs.Props.PosixNames
