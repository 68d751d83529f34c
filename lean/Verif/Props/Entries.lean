import Verif.Props.SpaceUse
import Verif.Props.Names
set_option linter.unusedSimpArgs false
set_option linter.unusedVariables false
/-!
Creating, linking and renaming complete if `statvfs` reports a few free blocks (C57).
-/
namespace RedFs.Props.Entries
open RedFs RedFs.Props.System RedFs.Props.Policy RedFs.Props.Account RedFs.Props.SpaceUse
open M Vol Spec

variable {c : Conf} {v v' w u : Vol} {r : Except Err Reply} {k : Call} {p n : Nat} {name name' : List Byte} {st : StatFs}

/-- The directory to which the call adds an entry, and the most blocks that this takes: the directory block and up to
two nodes above it are rewritten; if the entry is the first one in a block then so may be the block before (with its nodes);
for a rename also the block with the old entry. -/
def Adds : Call → Nat → Nat → Prop
  | .create p _ _, q, n => q = p ∧ n = 6
  | .link p _ _, q, n => q = p ∧ n = 6
  | .rename _ _ p' _, q, n => q = p' ∧ n = 9
  | _, _, _ => False

/-- Directory `p` has `m` entries. -/
def NumEntries (c : Conf) (F : RedFs.Files) (p m : Nat) : Prop := HasCard (fun x : List Byte × Nat => Has c F p x.1 x.2) m

/-- Directory `p` has as many entries as a directory can have. -/
def Full (c : Conf) (F : RedFs.Files) (p : Nat) : Prop := ∀ m, NumEntries c F p m → c.direntsMax ≤ m

theorem Adds.mods (ha : Adds k p n) : ∃ ev, Modifies k ev := by
  cases k <;> first | exact ha.elim | exact ⟨_, rfl, fun h => by cases h⟩

theorem Adds.posix (ha : Adds k p n) (hk : k.Ok c) : c.posix = true := by
  cases k <;> first | exact ha.elim | exact hk.1

/-- The entry in place `k`, if there is one. -/
def entryAt (c : Conf) (F : RedFs.Files) (p k : Nat) : List Byte × Nat := match entOf c F p k with
  | some (i, s) => (s, i)
  | none => ([], 0)

theorem entryAt_eq {F : RedFs.Files} {k : Nat} (h : entOf c F p k ≠ none) : entOf c F p k = some ((entryAt c F p k).2, (entryAt c F p k).1) := by
  unfold entryAt
  rcases he : entOf c F p k with _ | ⟨i, s⟩
  · exact absurd he h
  · rfl

theorem ent_dir {F : RedFs.Files} {k : Nat} (h : entOf c F p k ≠ none) : ∃ f, IsDir F p f := by
  obtain ⟨f, hf⟩ := Option.ne_none_iff_exists'.1 (fun hx => h (entOf_none hx k))
  refine ⟨f, hf, ?_⟩
  by_contra hm
  exact h (by unfold entOf entAt; rw [hf]; simp [hm])

theorem entryAt_inj {F : RedFs.Files} (hn : NsOk c F) (hc : c.Ok) (hp : c.PosixOk) {a b : Nat} (ha : entOf c F p a ≠ none) (hb : entOf c F p b ≠ none)
    (hab : entryAt c F p a = entryAt c F p b) : a = b := by
  have e1 := entryAt_eq ha
  have e2 := entryAt_eq hb
  rw [← hab] at e2
  obtain ⟨f, hd⟩ := ent_dir ha
  have hent := hn.ent hc hp hd
  exact (hn.dirs p f hd).2.uniq a b _ _ _ (by rw [← hent]; exact e1) (by rw [← hent]; exact e2)

/-- If all places are taken then the directory is full. -/
theorem full_of {F : RedFs.Files} (hn : NsOk c F) (hc : c.Ok) (hp : c.PosixOk) (h : ∀ k, k < c.direntsMax → entOf c F p k ≠ none) : Full c F p := by
  rintro m ⟨l, h1, h2, rfl⟩
  have hnd : ((List.range c.direntsMax).map (entryAt c F p)).Nodup := by
    rw [List.nodup_map_iff_inj_on List.nodup_range]
    intro a ha b hb hab
    exact entryAt_inj hn hc hp (h a (List.mem_range.1 ha)) (h b (List.mem_range.1 hb)) hab
  have hsub : ((List.range c.direntsMax).map (entryAt c F p)).Subperm l := by
    refine hnd.subperm ?_
    intro x hx
    rw [List.mem_map] at hx
    obtain ⟨k, hk, rfl⟩ := hx
    exact (h2 _).2 ⟨k, entryAt_eq (h k (List.mem_range.1 hk))⟩
  have := hsub.length_le
  simpa using this

/-- If a place is free then there are fewer than the maximum number of entries. -/
theorem room_of {F : RedFs.Files} (hn : NsOk c F) (hc : c.Ok) (hp : c.PosixOk) {f : AFile} (hd : IsDir F p f) {k0 : Nat} (hk : k0 < c.direntsMax)
    (h : entOf c F p k0 = none) : ∃ m, NumEntries c F p m ∧ m < c.direntsMax := by
  have hmem : ∀ k, k ∈ (List.range c.direntsMax).filter (fun k => (entOf c F p k).isSome) ↔ entOf c F p k ≠ none := by
    intro k
    rw [List.mem_filter, List.mem_range, ← Option.isSome_iff_ne_none]
    refine ⟨fun h => h.2, fun h => ⟨?_, h⟩⟩
    by_contra hx
    have hent := hn.ent hc hp hd k
    rw [(hn.dirs p f hd).2.out k (by have := (hn.dirs p f hd).2.max; omega)] at hent
    rw [hent] at h; cases h
  refine ⟨_, ⟨((List.range c.direntsMax).filter (fun k => (entOf c F p k).isSome)).map (entryAt c F p), ?_, ?_, rfl⟩, ?_⟩
  · rw [List.nodup_map_iff_inj_on (List.nodup_range.filter _)]
    intro a ha b hb hab
    exact entryAt_inj hn hc hp ((hmem a).1 ha) ((hmem b).1 hb) hab
  · rintro ⟨s, j⟩
    rw [List.mem_map]
    constructor
    · rintro ⟨k, hk, e⟩
      refine ⟨k, ?_⟩
      rw [entryAt_eq ((hmem k).1 hk), e]
    · rintro ⟨k, hk⟩
      refine ⟨k, (hmem k).2 (by rw [hk]; simp), ?_⟩
      unfold entryAt; rw [hk]
  · rw [List.length_map]
    have := List.length_filter_lt_length_iff_exists (p := fun k => (entOf c F p k).isSome) (l := List.range c.direntsMax)
    rw [List.length_range] at this
    exact this.2 ⟨k0, List.mem_range.2 hk, by rw [h]; simp⟩

/-- One attempt that fails for lack of space. -/
theorem try_space (hc : c.SysOk) (h : Inv c (Sound c) v) (hro : v.readOnly = false) (hk : k.Ok c) (ha : Adds k p n)
    (e : tryOnce c k v = (.error .enospc, v')) : (Full c (files c v) p ∨ freeBlockCount c v < n) ∧ (n = 6 → tot v' = tot v) := by
  have hpx := ha.posix hk
  rw [Sound.posix hpx] at h
  have key : ∀ {α : Type} {g : α → Reply} {m : VM α} {R : RedFs.Files → Except Err α → RedFs.Files → Prop} {keep : Bool}, OpSpecN c (NsOk c) n p keep m R →
      reply g m v = (.error .enospc, v') → (Full c (files c v) p ∨ freeBlockCount c v < n) ∧ (keep = true → tot v' = tot v) := by
    intro α g m R keep hs he
    obtain ⟨r, v1, ⟨e1, N⟩, _⟩ := hs v h hro
    rw [reply_run e1] at he
    obtain ⟨h1, rfl⟩ := Prod.mk.inj he
    cases r with
    | ok _ => cases h1
    | error e =>
      injection h1 with h1; subst h1
      obtain ⟨a, b⟩ := N rfl
      exact ⟨a.imp (full_of h.now hc.ok (hc.posixOk hpx)) id, b⟩
  cases k with
  | create q name d =>
    obtain ⟨rfl, rfl⟩ := ha
    have := key (coreCreateSub_full hc.ok (hc.posixOk hpx) p hk.2 d) e
    exact ⟨this.1, fun _ => this.2 rfl⟩
  | link q name i =>
    obtain ⟨rfl, rfl⟩ := ha
    have := key (coreLinkSub_full hc.ok (hc.posixOk hpx) p hk.2 i) e
    exact ⟨this.1, fun _ => this.2 rfl⟩
  | rename q name q' name' =>
    obtain ⟨rfl, rfl⟩ := ha
    have := key (coreRenameSub_full hc.ok (hc.posixOk hpx) q hk.2.1 p hk.2.2) e
    exact ⟨this.1, fun hh => by omega⟩
  | _ => exact ha.elim

/-- **C57** A call that adds an entry to a directory fails with `RED_ENOSPC` only if the directory has the maximum number of
entries or `statvfs` reports fewer free blocks than the call can take (six; nine for a rename). -/
theorem C57_no_space (hc : c.SysOk) (h : Reach c v) (hm : v.mounted = true) (hro : v.readOnly = false)
    (hs : exec c .statfs v = (.ok (.statfs st), w)) (hk : k.Ok c) (ha : Adds k p n) (he : exec c k v = (.error .enospc, v')) :
    Full c (files c v) p ∨ st.bfree < n := by
  have hi := Reach.up hc h hm
  obtain ⟨ev, hev⟩ := ha.mods
  rw [bfree_eq hc hi hs]
  obtain ⟨r1, v1, e1, _, _, how⟩ := modify_how hc hi hro hk hev he
  rcases how with ⟨h1, _⟩ | ⟨_, h1, _⟩
  · rw [h1] at e1; exact (try_space hc hi hro hk ha e1).1
  · rw [← h1] at e1; exact (try_space hc hi hro hk ha e1).1

/-- **C57** With the "volume full" event enabled, `red_open` with `RED_O_CREAT`, `red_mkdir` and `red_link` fail with `RED_ENOSPC` only if
the directory has the maximum number of entries or fewer than six blocks would be free after a transaction. -/
theorem C57_volfull (hc : c.SysOk) (h : Reach c v) (hm : v.mounted = true) (hro : v.readOnly = false) (hon : v.on .volfull = true)
    {a : Reply} (ht : exec c .transact v = (.ok a, u)) (hs : exec c .statfs u = (.ok (.statfs st), w)) (hk : k.Ok c) (ha : Adds k p 6)
    (he : exec c k v = (.error .enospc, v')) : Full c (files c v) p ∨ st.bfree < 6 := by
  have hi := Reach.up hc h hm
  have hfree := transact_free hc hi hro ht hs
  obtain ⟨ev, hev⟩ := ha.mods
  obtain ⟨r1, v1, e1, E1, cl, how⟩ := modify_how hc hi hro hk hev he
  rcases how with ⟨h1, _, _, v2, v3, t1, C, I2, e2, _⟩ | ⟨h1, h2, _⟩
  · subst h1
    have htot := (try_space hc hi hro hk ha e1).2 rfl
    have hro2 : v2.readOnly = false := by rw [C.com.readOnly, E1.readOnly]; exact hro
    have hF : files c v2 = files c v := by rw [C.files, cl _ rfl]
    rcases (try_space hc I2 hro2 hk ha e2).1 with g | g
    · rw [hF] at g; exact Or.inl g
    · right
      unfold freeBlockCount at g
      rw [I2.idle, C.free, htot] at g
      simp only [Bool.false_eq_true, if_false] at g
      omega
  · subst h2
    obtain ⟨g, htot⟩ := try_space hc hi hro hk ha e1
    have htot := htot rfl
    refine g.imp id fun g => ?_
    have haf : v1.almostFree = 0 := by
      by_cases hz : 0 < v1.almostFree
      · exact absurd ⟨rfl, hon, hz⟩ h1
      · omega
    unfold freeBlockCount at g
    rw [hi.idle] at g
    have haf0 := E1.step.afree
    unfold tot at hfree htot
    simp only [Bool.false_eq_true, if_false] at g
    omega

theorem NameOk.not_bad {s : List Byte} {e : Err} (h : NameOk c s) : ¬ BadName c s e := by
  rintro (⟨h1, _⟩ | ⟨h1, _⟩ | ⟨_, _, h1 | h1, _⟩)
  · have := h.pos; omega
  · have := h.max; omega
  · exact h.dot h1
  · exact h.dotdot h1

theorem IsDir.not {F : RedFs.Files} {e : Err} {f : AFile} (h : IsDir F p f) : ¬ NotDir F p e := by
  rintro (⟨_, h1⟩ | ⟨_, g, h1, h2⟩)
  · rw [h.1] at h1; cases h1
  · rw [h.1] at h1; injection h1 with h1; subst h1
    exact modes_ne (h.2.symm.trans h2)

/-- **C57** Creating a file or a directory is completed if the parent is a directory with fewer than the maximum number of entries,
the name is a legal one that is not in use, and `statvfs` reports a free inode and six free blocks. -/
theorem C57_create_completes (hc : c.SysOk) (h : Reach c v) (hm : v.mounted = true) (hro : v.readOnly = false)
    (hs : exec c .statfs v = (.ok (.statfs st), w)) {isDir : Bool} (hk : (Call.create p name isDir).Ok c) {f : AFile} (hd : IsDir (files c v) p f)
    (hok : NameOk c (nameOf c name)) (hno : ∀ j, ¬ Has c (files c v) p (nameOf c name) j) {m : Nat} (hent : NumEntries c (files c v) p m) (hlt : m < c.direntsMax)
    (hino : 1 ≤ st.ffree) (hroom : 6 ≤ st.bfree) :
    ∃ i v', exec c (.create p name isDir) v = (.ok (.num i), v') ∧ Create c p (nameOf c name) isDir (files c v) (.ok i) (files c v') := by
  rcases he : exec c (.create p name isDir) v with ⟨r, v'⟩
  obtain ⟨r0, h1, h2⟩ := create_rel hc h hm hro hk he
  cases r0 with
  | ok i => exact ⟨i, v', by rw [h1]; rfl, h2⟩
  | error e =>
    exfalso
    obtain ⟨_, h2 | ⟨_, ⟨_, h2⟩ | ⟨_, h2 | ⟨_, ⟨_, j, h2⟩ | ⟨h2, _⟩⟩⟩⟩⟩ := h2
    · exact IsDir.not hd h2
    · obtain ⟨l, _, g2, g3⟩ := C40_free_inodes hc h hm hs
      obtain ⟨i, hi⟩ : ∃ i, i ∈ l := by
        cases l with
        | nil => simp at g3; omega
        | cons i _ => exact ⟨i, by simp⟩
      obtain ⟨g4, g5, g6⟩ := (g2 i).1 hi
      have := h2 i (by simp [Conf.inodeValid]; omega)
      rw [g6] at this; cases this
    · exact NameOk.not_bad hok h2
    · exact hno j h2
    · subst h2; subst h1
      rcases C57_no_space hc h hm hro hs hk ⟨rfl, rfl⟩ he with g | g
      · have := g m hent; omega
      · omega

/-- **C57** A further name for a file is created if the parent is a directory with fewer than the maximum number of entries,
the file has fewer than 65535 names, the name is a legal one that is not in use, and `statvfs` reports six free blocks. -/
theorem C57_link_completes (hc : c.SysOk) (h : Reach c v) (hm : v.mounted = true) (hro : v.readOnly = false)
    (hs : exec c .statfs v = (.ok (.statfs st), w)) {i : Nat} (hk : (Call.link p name i).Ok c) {f g : AFile} (hd : IsDir (files c v) p f)
    (hg : IsReg (files c v) i g) (hl : g.nlink < 65535)
    (hok : NameOk c (nameOf c name)) (hno : ∀ j, ¬ Has c (files c v) p (nameOf c name) j) {m : Nat} (hent : NumEntries c (files c v) p m) (hlt : m < c.direntsMax)
    (hroom : 6 ≤ st.bfree) :
    ∃ v', exec c (.link p name i) v = (.ok .unit, v') ∧ Link c p (nameOf c name) i (files c v) (.ok ()) (files c v') := by
  rcases he : exec c (.link p name i) v with ⟨r, v'⟩
  have hrel : Via (fun _ => .unit) (Link c p (nameOf c name) i) (files c v) r (files c v') := by
    obtain ⟨r', v'', s', tr, e', d, a, _⟩ := exec_sim hc (Reach.sysOf hc h hm) hk
    rw [he] at e'; obtain ⟨rfl, rfl⟩ := Prod.mk.inj e'
    obtain ⟨_, h2, _⟩ := a.inv ((d.mounted (fun hh => by cases hh) (Or.inl rfl)).trans rfl)
    rw [← h2]; exact modify_rel d hro
  obtain ⟨r0, h1, h2⟩ := hrel
  cases r0 with
  | ok _ => exact ⟨v', by rw [h1]; rfl, h2⟩
  | error e =>
    exfalso
    obtain ⟨_, h2 | ⟨_, ⟨_, h2⟩ | ⟨_, g', h2⟩ | ⟨g', hg', ⟨_, h2⟩ | ⟨_, h2 | ⟨_, ⟨_, j, h2⟩ | ⟨h2, _⟩⟩⟩⟩⟩⟩ := h2
    · exact IsDir.not hd h2
    · rw [hg.1] at h2; cases h2
    · have := h2.1; rw [hg.1] at this; injection this with this; subst this
      exact modes_ne (h2.2.symm.trans hg.2)
    · have := hg'.1; rw [hg.1] at this; injection this with this; subst this; omega
    · exact NameOk.not_bad hok h2
    · exact hno j h2
    · subst h2; subst h1
      rcases C57_no_space hc h hm hro hs hk ⟨rfl, rfl⟩ he with g | g
      · have := g m hent; omega
      · omega

/-- **C57** Renaming to a name that is not in use is completed if there is a file with the old name, both parents are directories, the new one
with fewer than the maximum number of entries, the new name is a legal one, the file is not a directory at or above
the new parent, and `statvfs` reports nine free blocks. -/
theorem C57_rename_completes (hc : c.SysOk) (h : Reach c v) (hm : v.mounted = true) (hro : v.readOnly = false)
    (hs : exec c .statfs v = (.ok (.statfs st), w)) {p' : Nat} (hk : (Call.rename p name p' name').Ok c) {f f' : AFile} (hd : IsDir (files c v) p f)
    (hd' : IsDir (files c v) p' f') {i : Nat} (hhas : Has c (files c v) p (nameOf c name) i) (hbelow : ∀ g, IsDir (files c v) i g → ¬ (graphOf c (files c v)).Below i p')
    (hold : 1 ≤ (nameOf c name).length ∧ (nameOf c name).length ≤ c.nameMax)
    (hok : NameOk c (nameOf c name')) (hno : ∀ j, ¬ Has c (files c v) p' (nameOf c name') j) {m : Nat} (hent : NumEntries c (files c v) p' m) (hlt : m < c.direntsMax)
    (hroom : 9 ≤ st.bfree) :
    ∃ v', exec c (.rename p name p' name') v = (.ok .unit, v') ∧ Rename c p (nameOf c name) p' (nameOf c name') (files c v) (.ok ()) (files c v') := by
  rcases he : exec c (.rename p name p' name') v with ⟨r, v'⟩
  obtain ⟨r0, h1, h2⟩ := Names.rename_rel hc h hm hro hk he
  cases r0 with
  | ok _ => exact ⟨v', by rw [h1]; rfl, h2⟩
  | error e =>
    exfalso
    have space : e = .enospc → False := by
      rintro rfl; subst h1
      rcases C57_no_space hc h hm hro hs hk ⟨rfl, rfl⟩ he with g | g
      · have := g m hent; omega
      · omega
    obtain ⟨_, h2⟩ := h2
    cases h2 with
    | srcDir h2 => exact IsDir.not hd h2
    | dstDir h2 => exact IsDir.not hd' h2
    | dots h2 => exact h2.elim hok.dot hok.dotdot
    | dstName h2 =>
      rcases h2 with ⟨h2, _⟩ | ⟨h2, _⟩
      · have := hok.pos; omega
      · have := hok.max; omega
    | srcName h2 => rcases h2 with ⟨h2, _⟩ | ⟨h2, _⟩ <;> omega
    | enoent h2 => exact h2 i hhas
    | eexist _ h2 => exact hno _ h2
    | enotdir _ h2 => exact hno _ h2
    | eisdir _ h2 => exact hno _ h2
    | enotempty _ h2 => exact hno _ h2
    | cyclic h2 hd3 h3 =>
      rw [Names.has_fun hc hk.1 h hm h2 hhas] at h3 hd3
      exact hbelow _ hd3 h3
    | full => exact space rfl
    | enospc => exact space rfl

/-! ### Cases -/

open Names in
/-- In directory "d" is one entry, "b"; the name "a" is free there, and 40 blocks are free. -/
theorem demo_free_k {k : Nat} (hk : 1 ≤ k) : entOf demoConf (files demoConf demoVol) 3 k = none := by
  obtain ⟨f, hf⟩ := Names.demo_d
  have ok := ((Names.Reach.ns demo_sys rfl demo_reach demo_mounted).dirs 3 f hf).2
  rw [entOf_dir hf]
  refine ok.out k ?_
  have : (match files demoConf demoVol 3 with | some f => demoConf.offIdx f.size | none => 0) = 1 := by decide +kernel
  rw [hf.1] at this
  show demoConf.offIdx f.size ≤ k
  dsimp only at this; omega
theorem demo_no_a (j : Nat) : ¬ Has demoConf (files demoConf demoVol) 3 nmA j := by
  rintro ⟨k, hk⟩
  by_cases h0 : k = 0
  · subst h0
    have : entOf demoConf (files demoConf demoVol) 3 0 = some (4, nmB) := by decide +kernel
    rw [this] at hk; injection hk with hk; injection hk with _ hk; cases hk
  · rw [demo_free_k (by omega)] at hk; cases hk
theorem demo_few : ∃ m, NumEntries demoConf (files demoConf demoVol) 3 m ∧ m < demoConf.direntsMax := by
  obtain ⟨f, hf⟩ := Names.demo_d
  exact room_of (Names.Reach.ns demo_sys rfl demo_reach demo_mounted) demo_sys.ok (demo_sys.posixOk rfl) hf (k0 := 1) (by decide) (demo_free_k (Nat.le_refl 1))
theorem demo_count : freeOn demoConf demoVol = 40 ∧ demoVol.work.freeInodes = 1 := by decide +kernel
theorem demo_stat : ∃ st w, exec demoConf .statfs demoVol = (.ok (.statfs st), w) ∧ st.bfree = 40 ∧ st.ffree = 1 := by
  obtain ⟨st, e, _, _, h⟩ := C14_statvfs (c := demoConf) demo_mounted
  exact ⟨st, _, e, (freeOn_eq e).trans demo_count.1, h.trans demo_count.2⟩

example : ∃ i v', exec demoConf (.create 3 nmA true) demoVol = (.ok (.num i), v') := by
  obtain ⟨f, hf⟩ := Names.demo_d
  obtain ⟨st, w, e, hb, hi⟩ := demo_stat
  obtain ⟨m, h1, h2⟩ := demo_few
  have hn := (Names.nmOk nmA (by simp)).2
  obtain ⟨i, v', h, _⟩ := C57_create_completes demo_sys demo_reach demo_mounted Names.demo_rw e (isDir := true) (p := 3) (name := nmA) ⟨rfl, by decide⟩ hf
    (by rw [hn.1]; exact hn.2) (by rw [hn.1]; exact demo_no_a) h1 h2 (by omega) (by omega)
  exact ⟨i, v', h⟩
example : ∃ v', exec demoConf (.link 3 nmA 4) demoVol = (.ok .unit, v') := by
  obtain ⟨f, hf⟩ := Names.demo_d
  obtain ⟨g, hg⟩ := Names.demo_a
  obtain ⟨st, w, e, hb, hi⟩ := demo_stat
  obtain ⟨m, h1, h2⟩ := demo_few
  have hn := (Names.nmOk nmA (by simp)).2
  have hl : (match files demoConf demoVol 4 with | some f => f.nlink | none => 0) = 2 := by decide +kernel
  rw [hg.1] at hl
  dsimp only at hl
  obtain ⟨v', h, _⟩ := C57_link_completes demo_sys demo_reach demo_mounted Names.demo_rw e (p := 3) (name := nmA) (i := 4) ⟨rfl, by decide⟩ hf hg (by omega)
    (by rw [hn.1]; exact hn.2) (by rw [hn.1]; exact demo_no_a) h1 h2 (by omega)
  exact ⟨v', h⟩
/-- The file "a" is moved into "d". -/
example : ∃ v', exec demoConf (.rename 2 nmA 3 nmA) demoVol = (.ok .unit, v') := by
  obtain ⟨f0, hf0⟩ := Names.demo_root
  obtain ⟨f, hf⟩ := Names.demo_d
  obtain ⟨g, hg⟩ := Names.demo_a
  obtain ⟨st, w, e, hb, hi⟩ := demo_stat
  obtain ⟨m, h1, h2⟩ := demo_few
  have hn := (Names.nmOk nmA (by simp)).2
  have hreg : ∀ g', ¬ IsDir (files demoConf demoVol) 4 g' := by
    intro g' h; have := h.1; rw [hg.1] at this; injection this with this; subst this
    exact modes_ne (h.2.symm.trans hg.2)
  obtain ⟨v', h, _⟩ := C57_rename_completes demo_sys demo_reach demo_mounted Names.demo_rw e (p := 2) (name := nmA) (p' := 3) (name' := nmA) (i := 4) ⟨rfl, by decide, by decide⟩ hf0 hf
    (by rw [hn.1]; exact Names.demo_has_a) (fun g' h _ => hreg g' h) (by rw [hn.1]; decide) (by rw [hn.1]; exact hn.2) (by rw [hn.1]; exact demo_no_a) h1 h2 (by omega)
  exact ⟨v', h⟩

/-- No block is free on `fullVol`, nor is one after a transaction: creating a file fails, and so does adding a name. -/
theorem full_values : fullVol.mounted = true ∧ fullVol.readOnly = false ∧ fullVol.on .volfull = true ∧
    isErr .enospc (exec fullConf (.create 2 nmB false) fullVol).1 = true ∧ isErr .enospc (exec fullConf (.rename 2 nmA 2 nmB) fullVol).1 = true := by decide +kernel
theorem err_run {e : Err} (h : isErr e (exec c k v).1 = true) : exec c k v = (.error e, (exec c k v).2) := by
  generalize exec c k v = x at h ⊢
  rcases x with ⟨e' | a, y⟩
  · cases e <;> cases e' <;> first | rfl | cases h
  · cases h
example : ∃ st w, exec fullConf .statfs fullVol = (.ok (.statfs st), w) ∧ (Full fullConf (files fullConf fullVol) 2 ∨ st.bfree < 9) := by
  obtain ⟨st, e, _⟩ := C14_statvfs (c := fullConf) full_values.1
  exact ⟨st, _, e, C57_no_space full_sys full_reach full_values.1 full_values.2.1 e (k := .rename 2 nmA 2 nmB) ⟨rfl, by decide, by decide⟩ ⟨rfl, rfl⟩ (err_run full_values.2.2.2.2)⟩
example : ∃ u st w, exec fullConf .transact fullVol = (.ok .unit, u) ∧ exec fullConf .statfs u = (.ok (.statfs st), w) ∧
    (Full fullConf (files fullConf fullVol) 2 ∨ st.bfree < 6) := by
  obtain ⟨v1, e, i', _⟩ := (Reach.up full_sys full_reach full_values.1).transact full_sys.ok
  have e' : exec fullConf .transact fullVol = (.ok .unit, v1) := reply_run (r := .ok ()) (by unfold coreVolTransact; rw [whenRw_run full_values.1 full_values.2.1]; exact e)
  obtain ⟨st, e2, _⟩ := C14_statvfs (c := fullConf) i'.mounted
  exact ⟨v1, st, _, e', e2, C57_volfull full_sys full_reach full_values.1 full_values.2.1 full_values.2.2.1 e' e2 (k := .create 2 nmB false) ⟨rfl, by decide⟩ ⟨rfl, rfl⟩
    (err_run full_values.2.2.2.1)⟩

end RedFs.Props.Entries
