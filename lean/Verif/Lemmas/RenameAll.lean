import Verif.Lemmas.Rename
set_option linter.unusedSimpArgs false
set_option linter.unusedVariables false
namespace RedFs
open M Bitmap Vol Str

variable {c : Conf} {v v' : Vol} {ci ci' : Cinode} {F F' : Files}

/-- The rest of `CoreRename` once the replaced inode is known. -/
def renameFinish (c : Conf) : Option Cinode → VM Unit
  | none => pure ()
  | some dst => criticalAssert (inodeLinkDec c dst)

/-- What is known about the inode that is replaced. -/
def Repl (c : Conf) (v : Vol) (dst : Option Cinode) (dstIno : Nat) (g : AFile) : Prop :=
  (dst = none ∧ dstIno = 0) ∨ (∃ dc, dst = some dc ∧ Mnt c v dc ∧ dc.ino = dstIno ∧ files c v dstIno = some g ∧ dstIno ≠ 0)

/-- The namespace after the rename. -/
theorem ns_rename (hc : c.Ok) (hp : c.PosixOk) {ps pd k k' i j : Nat} {s s' : List Byte} {f g : AFile} (h : NsOk c F) (hk : entOf c F ps k = some (i, s))
    (hf : F i = some f) (h1 : i ≠ ps) (h2 : i ≠ pd) (hb : f.mode = modeDir → ¬ (graphOf c F).Below i pd)
    (k1 : KeptDir c F F' ps) (k2 : KeptDir c F F' pd) (hFi : F' i = some { f with parent := pd })
    (hj : (entOf c F pd k' = none ∧ ∀ q, q ≠ i → q ≠ ps → q ≠ pd → F' q = F q) ∨
      (entOf c F pd k' = some (j, s') ∧ F j = some g ∧ Spec.Empty c F j ∧ j ≠ i ∧ j ≠ ps ∧ j ≠ pd ∧ F' j = Spec.unlinked g ∧
        ∀ q, q ≠ i → q ≠ j → q ≠ ps → q ≠ pd → F' q = F q))
    (hE : ∀ q m, entOf c F' q m = if q = pd ∧ m = k' then some (i, s') else if q = ps ∧ m = k then none else entOf c F q m) : NsOk c F' := by
  have hks : (graphOf c F).slot ps k = some i := slot_some.2 ⟨_, hk⟩
  obtain ⟨fd, fd', d1, d2, d3, d4, d5, d6, d7⟩ := k2
  have k2 : KeptDir c F F' pd := ⟨fd, fd', d1, d2, d3, d4, d5, d6, d7⟩
  have dirI : ∀ x, Spec.IsDir F' i x → DirFile c x (dirOf c x) ∧ DirOk c (dirOf c x) := by
    intro x hx
    have hx1 := hx.1; rw [hFi] at hx1; injection hx1 with hx1; subst hx1
    obtain ⟨g1, g2⟩ := h.dirs i f ⟨hf, hx.2⟩
    exact ⟨⟨g1.mode, g1.size, g1.bytes⟩, g2⟩
  have dirK : ∀ q, KeptDir c F F' q → ∀ x, Spec.IsDir F' q x → DirFile c x (dirOf c x) ∧ DirOk c (dirOf c x) := by
    rintro q ⟨a, b, a1, a2, a3, a4, a5, _⟩ x hx
    have hx1 := hx.1; rw [a2] at hx1; injection hx1 with hx1; subst hx1
    exact ⟨a4, a5⟩
  have nI : (graphOf c F').node i = some { (⟨decide (f.mode = modeDir), f.nlink, f.parent⟩ : Node) with parent := pd } := node_of hFi
  have hslot : ∀ q m, (graphOf c F').slot q m = if q = pd ∧ m = k' then some i else if q = ps ∧ m = k then none else (graphOf c F).slot q m := by
    intro q m
    show (entOf c F' q m).map _ = if _ then _ else if _ then _ else (entOf c F q m).map _
    rw [hE]
    split
    · rfl
    · split <;> rfl
  rcases hj with ⟨j1, j2⟩ | ⟨j1, j2, j3, j4, j5, j6, j7, j8⟩
  · have other : ∀ q, q ≠ i → (graphOf c F').node q = (graphOf c F).node q := by
      intro q hq
      by_cases e1 : q = ps
      · rw [e1]; exact ns_kept k1
      by_cases e2 : q = pd
      · rw [e2]; exact ns_kept k2
      · show (F' q).map _ = (F q).map _; rw [j2 q hq e1 e2]
    refine ⟨?_, ?_⟩
    · intro q x hx
      by_cases e0 : q = i
      · subst e0; exact dirI x hx
      by_cases e1 : q = ps
      · subst e1; exact dirK _ k1 x hx
      by_cases e2 : q = pd
      · subst e2; exact dirK _ k2 x hx
      · exact h.dirs q x ⟨by rw [← j2 q e0 e1 e2]; exact hx.1, hx.2⟩
    · refine h.graph.move (node_of hf) hks (node_of d1) (by simp [d3]) (slot_none.2 j1) (fun hd => hb (of_decide_eq_true hd)) ?_ hslot
      intro q
      by_cases e0 : q = i
      · rw [if_pos e0, e0]; exact nI
      · rw [if_neg e0]; exact other q e0
  · have hjs : (graphOf c F).slot pd k' = some j := slot_some.2 ⟨_, j1⟩
    have hjn := node_of (c := c) j2
    have hone : g.mode = modeDir → ¬ 1 < g.nlink := by
      intro hm
      have := h.graph.one j _ hjn (by simp [hm])
      simp at this; omega
    -- the intermediate state: the replaced inode has lost its name
    let nj : Option Node := if 1 < g.nlink then some ⟨decide (g.mode = modeDir), g.nlink - 1, g.parent⟩ else none
    let G1 : Graph := ⟨fun q => if q = j then nj else (graphOf c F).node q, fun q m => if q = pd ∧ m = k' then none else (graphOf c F).slot q m⟩
    have g1 : GraphOk G1 := h.graph.unlink (G' := G1) hjn hjs (fun m => slot_none.2 (j3 m)) (fun q => rfl) (fun q m => rfl)
    have nF : ∀ q, q ≠ i → (graphOf c F').node q = G1.node q := by
      intro q hq
      show _ = if q = j then nj else (graphOf c F).node q
      by_cases e0 : q = j
      · rw [if_pos e0, e0]
        show (F' j).map _ = _
        rw [j7]
        unfold Spec.unlinked
        show _ = if 1 < g.nlink then _ else _
        split <;> rfl
      rw [if_neg e0]
      by_cases e1 : q = ps
      · rw [e1]; exact ns_kept k1
      by_cases e2 : q = pd
      · rw [e2]; exact ns_kept k2
      · show (F' q).map _ = (F q).map _; rw [j8 q hq e0 e1 e2]
    refine ⟨?_, ?_⟩
    · intro q x hx
      by_cases e0 : q = i
      · subst e0; exact dirI x hx
      by_cases e1 : q = ps
      · subst e1; exact dirK _ k1 x hx
      by_cases e2 : q = pd
      · subst e2; exact dirK _ k2 x hx
      by_cases e3 : q = j
      · subst e3
        have hx1 := hx.1; rw [j7] at hx1
        unfold Spec.unlinked at hx1
        split at hx1
        · next hl =>
          injection hx1 with hx1
          exact absurd hl (hone (by rw [← hx.2, ← hx1]))
        · cases hx1
      · exact h.dirs q x ⟨by rw [← j8 q e0 e3 e1 e2]; exact hx.1, hx.2⟩
    · have ni1 : G1.node i = some ⟨decide (f.mode = modeDir), f.nlink, f.parent⟩ := by
        show (if i = j then nj else _) = _
        rw [if_neg (Ne.symm j4)]; exact node_of hf
      have np1 : G1.node pd = some ⟨decide (fd.mode = modeDir), fd.nlink, fd.parent⟩ := by
        show (if pd = j then nj else _) = _
        rw [if_neg (Ne.symm j6)]; exact node_of d1
      have hne : ¬ (ps = pd ∧ k = k') := by
        rintro ⟨rfl, rfl⟩
        rw [hk] at j1; injection j1 with j1; injection j1 with j1 _; exact j4 j1.symm
      have ks1 : G1.slot ps k = some i := by
        show (if ps = pd ∧ k = k' then none else _) = _
        rw [if_neg hne]; exact hks
      refine g1.move ni1 ks1 np1 (by simp [d3]) (by show (if _ then none else _) = _; rw [if_pos ⟨rfl, rfl⟩]) ?_ ?_ ?_
      · intro hd hB
        refine hb (of_decide_eq_true hd) (hB.of_sub ?_)
        intro y nd hy hyd
        change (if y = j then nj else _) = _ at hy
        split at hy
        · change (if 1 < g.nlink then _ else _) = _ at hy
          split at hy
          · next hl =>
            injection hy with hy; rw [← hy] at hyd
            exact absurd hl (hone (of_decide_eq_true hyd))
          · cases hy
        · exact hy
      · intro q
        by_cases e0 : q = i
        · rw [if_pos e0, e0]; exact nI
        · rw [if_neg e0]; exact nF q e0
      · intro q m
        rw [hslot]
        show _ = if q = pd ∧ m = k' then _ else if q = ps ∧ m = k then _ else if q = pd ∧ m = k' then none else _
        by_cases e1 : q = pd ∧ m = k'
        · rw [if_pos e1, if_pos e1]
        · rw [if_neg e1, if_neg e1, if_neg e1]

/-- Only inodes have been branched. -/
structure Quiet (c : Conf) (v v' : Vol) : Prop where
  ch : Ch c v v' (fun _ => True)
  files : RedFs.files c v' = RedFs.files c v
  tot : RedFs.tot v' = RedFs.tot v
  kp : Kp c v v' (fun _ => False)
  free : v'.work.freeBlocks = v.work.freeBlocks

theorem Quiet.refl (h : Wf c v) : Quiet c v v := ⟨.refl h, rfl, rfl, .refl, rfl⟩
theorem Quiet.trans (hc : c.Ok) {v1 v2 : Vol} (a : Quiet c v v1) (b : Quiet c v1 v2) : Quiet c v v2 :=
  ⟨a.ch.trans hc b.ch, b.files.trans a.files, b.tot.trans a.tot, a.kp.trans b.kp, b.free.trans a.free⟩
theorem Quiet.eff (hc : c.Ok) (a : Quiet c v v') (h : Inv c (NsOk c) v) : Eff c (NsOk c) v v' :=
  ⟨h.step hc a.ch (by rw [a.files]; exact h.now) (by rw [a.tot]; exact h.rsv), a.ch.step, a.ch.readOnly, a.kp.reg fun _ hh => hh.elim⟩
theorem Fresh.quiet {i : Nat} {f : AFile} (h : Fresh c v v' ci i f) : Quiet c v v' :=
  ⟨h.ch.mono fun _ _ => trivial, funext h.same, h.tot, h.kp, h.free⟩
theorem Quiet.count (h : Quiet c v v') : freeBlockCount c v' = freeBlockCount c v := by
  unfold freeBlockCount; rw [h.ch.useReserved, h.free]

theorem typeErr_ne {t : FType} {m : Nat} {e : Err} (h : typeErr t m = some e) : e ≠ .enospc := by
  rintro rfl
  revert h
  unfold typeErr
  split <;> (try split) <;> simp

theorem renameMove_spec (hc : c.Ok) (hp : c.PosixOk) {P : Parents} {ps pd : Nat} {ds dd : ADir} (h : Inv c (NsOk c) v) (pm : PM c v P ps pd ds dd)
    {i srcIdx dstIdx dstIno : Nat} {nm name : List Byte} (hn : CStr.Ok name) (hs : ds.slot srcIdx = some (i, nm)) (hok : NameOk c (nameOf c name))
    (hd : (dd.slot dstIdx = none ∧ dstIno = 0 ∧ dstIdx ≤ dd.n ∧ dstIdx < c.direntsMax ∧ ∀ k j, dd.slot k ≠ some (j, nameOf c name)) ∨
      (dd.slot dstIdx = some (dstIno, nameOf c name) ∧ c.renameAtomic = true)) (hij : i ≠ dstIno) :
    ∃ r v', ((renameMove c P srcIdx i dstIdx dstIno name (nameOf c name).length >>= renameFinish c) v = (r, v') ∧ (r = .error .enospc → freeBlockCount c v < 9)) ∧ Eff c (NsOk c) v v' ∧
      Spec.Rename c ps nm pd (nameOf c name) (files c v) r (files c v') := by
  have hfs : files c v ps = some (ciFile c v P.src) := by rw [← pm.si]; exact h.wf.file pm.src.mnt
  have hfd : files c v pd = some (ciFile c v P.getDst) := by rw [← pm.di]; exact h.wf.file pm.dst.mnt
  have ents : ∀ k, entOf c (files c v) ps k = ds.slot k := entOf_file hc hp hfs pm.src.file pm.src.ok
  have entd : ∀ k, entOf c (files c v) pd k = dd.slot k := entOf_file hc hp hfd pm.dst.file pm.dst.ok
  have hk : entOf c (files c v) ps srcIdx = some (i, nm) := by rw [ents]; exact hs
  have hsi : (graphOf c (files c v)).slot ps srcIdx = some i := slot_some.2 ⟨_, hk⟩
  have live : ∀ p k j s, entOf c (files c v) p k = some (j, s) → j ≠ 2 ∧ ∃ g, files c v j = some g := by
    intro p k j s hx
    obtain ⟨h2, hl⟩ := h.now.graph.live p k j (slot_some.2 ⟨_, hx⟩)
    change ((files c v j).map _).isSome = true at hl
    rw [Option.isSome_map] at hl
    exact ⟨h2, Option.isSome_iff_exists.1 hl⟩
  obtain ⟨hi2, f, hf⟩ := live _ _ _ _ hk
  have hips : i ≠ ps := by rintro rfl; exact h.now.graph.not_self hsi
  have hne : ps = pd → dstIdx ≠ srcIdx := by
    rintro rfl rfl
    rcases hd with ⟨h1, _⟩ | ⟨h1, _⟩
    · rw [← entd, hk] at h1; cases h1
    · rw [← entd, hk] at h1; injection h1 with h1; injection h1 with h1 _; exact hij h1
  have hnames : ¬ (ps = pd ∧ nm = nameOf c name) := by
    rintro ⟨rfl, rfl⟩
    rcases hd with ⟨_, _, _, _, h1⟩ | ⟨h1, _⟩
    · exact h1 srcIdx i (by rw [← entd]; exact hk)
    · rw [← entd] at h1
      have := pm.src.ok.uniq srcIdx dstIdx i dstIno _ hs (by rw [← ents]; exact h1)
      exact hne rfl this.symm
  have hHi : Has c (files c v) ps nm i := ⟨_, hk⟩
  have quit : ∀ (e : Err) (v1 : Vol), Quiet c v v1 → Spec.NoRename c ps nm pd (nameOf c name) (files c v) e →
      Eff c (NsOk c) v v1 ∧ Spec.Rename c ps nm pd (nameOf c name) (files c v) (.error e) (files c v1) :=
    fun e v1 q hx => ⟨q.eff hc h, q.files, hx⟩
  unfold renameMove
  rw [run_bind, run_bind]
  rcases inodeMount_spec hc h.wf i .either true with ⟨h1, h2⟩ | ⟨f', h1, ⟨e, h2, h3⟩ | ⟨_, src, v1, h3, fs, sdt, _⟩⟩
  · rw [hf] at h1; cases h1
  · cases h2
  rw [hf] at h1; injection h1 with h1; subst h1
  rw [h3]; dsimp only
  have q1 := fs.quiet
  have hw1 := q1.ch.wf
  have hsd : src.dir = decide (f.mode = modeDir) := fs.dir
  have hsdt := sdt rfl
  have hmode := files_mode h.wf hf
  -- the replaced inode
  have repl : (∃ e v2, (renameReplaced c src dstIno v1 = (.error e, v2) ∧ e ≠ .enospc) ∧ Quiet c v1 v2 ∧ Spec.NoRename c ps nm pd (nameOf c name) (files c v) e) ∨
      ∃ dst v2, renameReplaced c src dstIno v1 = (.ok dst, v2) ∧ Quiet c v1 v2 ∧
        ((dst = none ∧ dstIno = 0 ∧ v2 = v1 ∧ entOf c (files c v) pd dstIdx = none ∧ ∀ j, ¬ Has c (files c v) pd (nameOf c name) j) ∨
         ∃ dc g, dst = some dc ∧ c.renameAtomic = true ∧ Mnt c v2 dc ∧ dc.ino = dstIno ∧ files c v dstIno = some g ∧ f.mode = g.mode ∧
          Spec.Empty c (files c v) dstIno ∧ entOf c (files c v) pd dstIdx = some (dstIno, nameOf c name) ∧ Ch c v1 v2 (· = dstIno)) := by
    rcases hd with ⟨h1, h2, _, _, h5⟩ | ⟨h1, h2⟩
    · right
      unfold renameReplaced
      rw [if_neg (fun hx => hx.2 h2)]
      exact ⟨none, v1, rfl, .refl hw1, Or.inl ⟨rfl, h2, rfl, by rw [entd]; exact h1, fun j ⟨k, hk⟩ => h5 k j (by rw [← entd]; exact hk)⟩⟩
    · have hjv := pm.dst.ok.ino _ _ _ h1
      have hj0 : dstIno ≠ 0 := by rintro rfl; simp [Conf.inodeValid] at hjv
      rw [← entd] at h1
      obtain ⟨hj2, g, hg⟩ := live _ _ _ _ h1
      have hg1 : files c v1 dstIno = some g := by rw [q1.files]; exact hg
      have hgm := files_mode h.wf hg
      have hHj : Has c (files c v) pd (nameOf c name) dstIno := ⟨_, h1⟩
      unfold renameReplaced
      rw [if_pos ⟨h2, hj0⟩, run_bind]
      rcases inodeMount_spec hc hw1 dstIno (if src.dir then .dir else .file) true with ⟨x1, _⟩ | ⟨g', x1, ⟨e, x2, x3⟩ | ⟨x2, dc, v2, x3, fd, _, _⟩⟩
      · rw [hg1] at x1; cases x1
      · left
        rw [hg1] at x1; injection x1 with x1; subst x1
        rw [x3]
        refine ⟨e, v1, ⟨rfl, typeErr_ne x2⟩, .refl hw1, ?_⟩
        by_cases hm : f.mode = modeDir
        · rw [hsd, decide_eq_true hm, if_pos rfl] at x2
          simp only [typeErr] at x2
          split at x2
          · cases x2
          · next hx =>
            injection x2 with x2; subst x2
            exact .enotdir hHi hHj ⟨hf, hm⟩ ⟨hg, hgm.resolve_right hx⟩
        · rw [hsd, decide_eq_false hm, if_neg (by simp)] at x2
          simp only [typeErr] at x2
          split at x2
          · cases x2
          · next hx =>
            injection x2 with x2; subst x2
            exact .eisdir hHi hHj ⟨hf, hmode.resolve_right hm⟩ ⟨hg, hgm.resolve_left hx⟩
      · rw [hg1] at x1; injection x1 with x1; subst x1
        have hfg : f.mode = g.mode := by
          by_cases hm : f.mode = modeDir
          · rw [hsd, decide_eq_true hm, if_pos rfl] at x2
            simp only [typeErr] at x2
            split at x2
            · next hx => rw [hm, hx]
            · cases x2
          · rw [hsd, decide_eq_false hm, if_neg (by simp)] at x2
            simp only [typeErr] at x2
            split at x2
            · next hx => rw [hx]; exact hmode.resolve_right hm
            · cases x2
        rw [x3]; dsimp only
        have hdd : dc.dir = decide (g.mode = modeDir) := fd.dir
        by_cases hemp : dc.dir = true ∧ 0 < dc.node.size
        · left
          rw [if_pos hemp]
          have hgd : g.mode = modeDir := by rw [hdd] at hemp; exact of_decide_eq_true hemp.1
          refine ⟨.enotempty, v2, ⟨rfl, by simp⟩, fd.quiet, .enotempty hHi hHj ⟨hf, hfg.trans hgd⟩ ⟨hg, hgd⟩ ?_⟩
          rw [← h.now.empty_size hc hp ⟨hg, hgd⟩, ← fd.size]; omega
        · right
          rw [if_neg hemp]
          have hempty : Spec.Empty c (files c v) dstIno := by
            rcases hgm with hm | hm
            · exact entOf_reg ⟨hg, hm⟩
            · rw [← h.now.empty_size hc hp ⟨hg, hm⟩, ← fd.size]
              by_contra hz
              exact hemp ⟨by rw [hdd]; exact decide_eq_true hm, by omega⟩
          exact ⟨some dc, v2, rfl, fd.quiet, Or.inr ⟨dc, g, rfl, h2, fd.mnt, fd.ino, hg, hfg, hempty, h1, fd.ch⟩⟩
  rw [run_bind]
  rcases repl with ⟨e, v2, ⟨er, hne'⟩, q2, why⟩ | ⟨dst, v2, er, q2, hD⟩
  · rw [er]; dsimp only
    obtain ⟨E, S⟩ := quit e v2 (q1.trans hc q2) why
    exact ⟨_, v2, ⟨rfl, fun hh => by injection hh with hh; exact absurd hh hne'⟩, E, S⟩
  rw [er]; dsimp only
  have q12 := q1.trans hc q2
  have h2inv := (q12.eff hc h).inv
  have hw2 := h2inv.wf
  have hF2 := q12.files
  -- the check for cycles
  have cyc : (∃ v3, src.dir = true ∧ cyclicCheck c src.ino P.getDst v2 = (.error .einval, v3) ∧ v3 = v2 ∧ Spec.NoRename c ps nm pd (nameOf c name) (files c v) .einval) ∨
      ((if src.dir = true then cyclicCheck c src.ino P.getDst else pure ()) v2 = (.ok (), v2) ∧ i ≠ pd ∧ (f.mode = modeDir → ¬ (graphOf c (files c v)).Below i pd)) := by
    by_cases hm : f.mode = modeDir
    · have hdT : src.dir = true := by rw [hsd]; exact decide_eq_true hm
      have hv : c.inodeValid i = true := files_valid hc h.wf (by rw [hf]; rfl)
      have hnb : P.getDst.nodeBuf ≠ none := by obtain ⟨w, hw, _⟩ := pm.dst.mnt.nb; rw [hw]; simp
      have hdd : P.getDst.dir = true := by rw [pm.dst.mnt.dir]; exact decide_eq_true pm.dst.file.mode
      rw [fs.ino]
      rcases cyclicCheck_spec hc h2inv hv hi2 hnb hdd (f := ciFile c v P.getDst) ⟨by rw [pm.di, hF2]; exact hfd, pm.dst.file.mode⟩ (fun _ => rfl) with ⟨hb, e⟩ | ⟨hb, e⟩
      · rw [pm.di, hF2] at hb
        left; exact ⟨v2, hdT, e, rfl, .cyclic hHi ⟨hf, hm⟩ hb⟩
      · rw [pm.di, hF2] at hb
        right
        rw [if_pos hdT]
        exact ⟨e, by rintro rfl; exact hb .refl, fun _ => hb⟩
    · right
      have hdT : src.dir = false := by rw [hsd]; exact decide_eq_false hm
      rw [if_neg (by rw [hdT]; simp)]
      refine ⟨rfl, ?_, fun hx => absurd hx hm⟩
      rintro rfl
      rw [hf] at hfd; injection hfd with hfd
      exact hm (by rw [hfd]; exact pm.dst.file.mode)
  rcases cyc with ⟨v3, hdT, e, rfl, why⟩ | ⟨e, hipd, hb⟩
  · rw [if_pos hdT, run_bind, e]; dsimp only
    obtain ⟨E, S⟩ := quit .einval v3 q12 why
    exact ⟨_, v3, ⟨rfl, fun hh => by cases hh⟩, E, S⟩
  have hrest : (if src.dir = true then (do
        cyclicCheck c src.ino P.getDst
        let p ← renameEntries c P src.ino srcIdx dstIdx dstIno name (nameOf c name).length
        let _ ← runCi src (setNode fun n => { n with pinode := p.getDst.ino })
        pure dst)
      else (do
        let p ← renameEntries c P src.ino srcIdx dstIdx dstIno name (nameOf c name).length
        let _ ← runCi src (setNode fun n => { n with pinode := p.getDst.ino })
        pure dst) : VM (Option Cinode)) v2 = (do
        let p ← renameEntries c P src.ino srcIdx dstIdx dstIno name (nameOf c name).length
        let _ ← runCi src (setNode fun n => { n with pinode := p.getDst.ino })
        pure dst : VM (Option Cinode)) v2 := by
    split
    · next hdT => rw [if_pos hdT] at e; rw [run_bind, e]
    · rfl
  rw [hrest]
  -- nothing changed for the parents
  have hjp : Ch c v1 v2 (fun q => q ≠ ps ∧ q ≠ pd ∧ q ≠ i) := by
    rcases hD with ⟨_, _, rfl, _⟩ | ⟨dc, g, _, _, _, _, _, _, hempty, hE, chj⟩
    · exact .refl hw1
    · refine chj.mono ?_
      rintro q rfl
      refine ⟨?_, ?_, Ne.symm hij⟩
      · rintro rfl; have := hempty srcIdx; rw [hk] at this; cases this
      · rintro rfl; have := hempty dstIdx; rw [hE] at this; cases this
  have pm1 := pm.frame h.wf fs.ch (Ne.symm hips) (Ne.symm hipd)
  have pm2 := pm1.frame hw1 hjp (fun hx => hx.1 rfl) (fun hx => hx.2.1 rfl)
  have ms2 : Mnt c v2 src := hjp.mnt src (by rw [fs.ino]; exact fun hx => hx.2.2 rfl) fs.mnt
  have hf2 : files c v2 i = some f := by rw [hF2]; exact hf
  have hur2 : v2.useReserved = false := by rw [q12.ch.useReserved]; exact h.idle
  have hrsv := h.rsv
  rcases renameTail_spec hc hp hw2 pm2 hn hs hok hd hne ms2 hsdt fs.ino hips hipd hf2 dst with ⟨v3, e3, ch3, kp3, hF3, ht3, h9⟩ | ⟨v3, e3, ch3, kp3, ht3, k1, k2, hFi, hE⟩
  · rw [e3]; dsimp only
    have ch := q12.ch.trans hc (ch3.mono fun _ _ => trivial)
    have hF : files c v3 = files c v := hF3.trans hF2
    refine ⟨_, v3, ⟨rfl, fun _ => by rw [← q12.count]; exact h9⟩, ⟨h.step hc ch (by rw [hF]; exact h.now) ?_, ch.step, ch.readOnly, ((q12.kp.mono (fun _ hh => hh.elim)).trans kp3).reg (by
        rintro j (rfl | rfl)
        · exact Or.inr (Or.inl ⟨_, by rw [hF]; exact hfs, pm.src.file.mode⟩)
        · exact Or.inr (Or.inl ⟨_, by rw [hF]; exact hfd, pm.dst.file.mode⟩))⟩, hF, .enospc hHi hf hok hb ?_⟩
    swap
    · rcases hD with ⟨_, _, _, _, hx⟩ | ⟨dc, g, _, x1, _, _, x2, x3, x4, x5, _⟩
      · exact Or.inl hx
      · exact Or.inr ⟨dstIno, g, x1, ⟨_, x5⟩, x2, x3, x4⟩
    have := q12.tot
    rcases ht3 hur2 with t | t <;> omega
  rw [e3]; dsimp only
  rw [hF2] at k1 k2 hE
  have uS : ∀ m j, entOf c (files c v) ps m = some (j, nm) → m = srcIdx :=
    fun m j hm => pm.src.ok.uniq m srcIdx j i _ (by rw [← ents]; exact hm) hs
  have uD : ∀ m j, entOf c (files c v) pd m = some (j, nameOf c name) → m = dstIdx := by
    intro m j hm
    rcases hD with ⟨_, _, _, _, hx⟩ | ⟨dc, g, _, _, _, _, _, _, _, hx, _⟩
    · exact absurd ⟨m, hm⟩ (hx j)
    · exact pm.dst.ok.uniq m dstIdx j dstIno _ (by rw [← entd]; exact hm) (by rw [← entd]; exact hx)
  have uT : ∀ j t, entOf c (files c v) pd dstIdx = some (j, t) → t = nameOf c name := by
    intro j t hm
    rcases hD with ⟨_, _, _, hx, _⟩ | ⟨dc, g, _, _, _, _, _, _, _, hx, _⟩
    · rw [hx] at hm; cases hm
    · rw [hx] at hm; injection hm with hm; injection hm with _ hm; exact hm.symm
  have hrs3 : min c.reserved c.allocable ≤ tot v3 := by
    have := q12.tot
    rcases ht3 hur2 with t | t <;> omega
  rcases hD with ⟨rfl, h0, rfl, hnone, hfree⟩ | ⟨dc, g, rfl, hat, mdc, hdi, hg, hfg, hempty, hEd, chj⟩
  · -- nothing is replaced
    have ch := q12.ch.trans hc (ch3.mono fun _ _ => trivial)
    have hFo : ∀ q, q ≠ i → q ≠ ps → q ≠ pd → files c v3 q = files c v q := by
      intro q a1 a2 a3
      rw [ch3.files q (fun hh => hh.elim a1 (fun hh => hh.elim a2 a3)), hF2]
    refine ⟨.ok (), v3, ⟨rfl, fun hh => by cases hh⟩, ⟨h.step hc ch ?_ hrs3, ch.step, ch.readOnly, ((q12.kp.mono (fun _ hh => hh.elim)).trans kp3).reg (by
        rintro j (rfl | rfl)
        · obtain ⟨_, f', _, hx, _⟩ := k1.kept; exact Or.inr (Or.inl ⟨f', hx⟩)
        · obtain ⟨_, f', _, hx, _⟩ := k2.kept; exact Or.inr (Or.inl ⟨f', hx⟩))⟩, Or.inr ⟨i, f, hHi, hf, hok, hips, hipd, hFi, hb, k1.kept, k2.kept,
      bound_move hc hp hk uS uD uT hnames hE, Or.inl ⟨hfree, hFo⟩⟩⟩
    exact ns_rename (j := 0) (g := f) hc hp h.now hk hf hips hipd hb k1 k2 hFi (Or.inl ⟨hnone, hFo⟩) hE
  · have hjps : dstIno ≠ ps := by rintro rfl; have := hempty srcIdx; rw [hk] at this; cases this
    have hjpd : dstIno ≠ pd := by rintro rfl; have := hempty dstIdx; rw [hEd] at this; cases this
    have hnj : ¬ (dc.ino = i ∨ dc.ino = ps ∨ dc.ino = pd) := by
      rw [hdi]; exact fun hh => hh.elim (Ne.symm hij) (fun hh => hh.elim hjps hjpd)
    have m3 := ch3.mnt dc hnj mdc
    have hg3 : files c v3 dc.ino = some g := by rw [ch3.files _ hnj, hF2, hdi]; exact hg
    obtain ⟨v4, e4, ch4, hF4, ht4, kp4⟩ := inodeLinkDec_spec hc ch3.wf m3 hg3
    rw [hdi] at ch4 hF4
    have hrun : renameFinish c (some dc) v3 = (.ok (), v4) := by
      show criticalAssert (inodeLinkDec c dc) v3 = _
      unfold criticalAssert
      simp only [run_bind, run_attempt, e4]; rfl
    have ch := (q12.ch.trans hc (ch3.mono fun _ _ => trivial)).trans hc (ch4.mono fun _ _ => trivial)
    have kept : ∀ q, q ≠ dstIno → KeptDir c (files c v) (files c v3) q → KeptDir c (files c v) (files c v4) q := by
      rintro q hq ⟨a, a', x1, x2, x3⟩
      exact ⟨a, a', x1, by rw [ch4.files q hq]; exact x2, x3⟩
    have k1' := kept ps (Ne.symm hjps) k1
    have k2' := kept pd (Ne.symm hjpd) k2
    have hFi' : files c v4 i = some { f with parent := pd } := by rw [ch4.files i hij]; exact hFi
    have hFo : ∀ q, q ≠ i → q ≠ dstIno → q ≠ ps → q ≠ pd → files c v4 q = files c v q := by
      intro q a1 a0 a2 a3
      rw [ch4.files q a0, ch3.files q (fun hh => hh.elim a1 (fun hh => hh.elim a2 a3)), hF2]
    have hE' : ∀ q m, entOf c (files c v4) q m = if q = pd ∧ m = dstIdx then some (i, nameOf c name) else if q = ps ∧ m = srcIdx then none else entOf c (files c v) q m := by
      intro q m
      by_cases eq : q = dstIno
      · subst eq
        rw [if_neg (fun hx => hjpd hx.1), if_neg (fun hx => hjps hx.1), hempty m]
        unfold entOf; rw [hF4]
        by_cases hl1 : 1 < g.nlink
        · rw [if_pos hl1]
          have := hempty m
          unfold entOf at this; rw [hg] at this
          exact this
        · rw [if_neg hl1]
      · rw [← hE]; exact entOf_congr (ch4.files q eq) m
    refine ⟨.ok (), v4, ⟨hrun, fun hh => by cases hh⟩, ⟨h.step hc ch ?_ (by omega), ch.step, ch.readOnly, (((q12.kp.mono (fun _ hh => hh.elim)).trans kp3).trans (kp4 _)).reg (by
        rintro j (rfl | rfl)
        · obtain ⟨_, f', _, hx, _⟩ := k1'.kept; exact Or.inr (Or.inl ⟨f', hx⟩)
        · obtain ⟨_, f', _, hx, _⟩ := k2'.kept; exact Or.inr (Or.inl ⟨f', hx⟩))⟩, Or.inr ⟨i, f, hHi, hf, hok, hips, hipd, hFi', hb, k1'.kept, k2'.kept,
      bound_move hc hp hk uS uD uT hnames hE', Or.inr ⟨dstIno, g, hat, ⟨_, hEd⟩, hg, Ne.symm hij, hjps, hjpd, hfg, hempty, hF4, hFo⟩⟩⟩
    exact ns_rename (j := dstIno) (g := g) hc hp h.now hk hf hips hipd hb k1' k2' hFi' (Or.inr ⟨hEd, hg, hempty, Ne.symm hij, hjps, hjpd, hF4, hFo⟩) hE'

theorem coreRenameSub_full (hc : c.Ok) (hp : c.PosixOk) (ps : Nat) {sname : List Byte} (hsn : CStr.Ok sname) (pd : Nat) {name : List Byte} (hn : CStr.Ok name) :
    OpSpecN c (NsOk c) 9 pd false (coreRenameSub c ps sname pd name) (Spec.Rename c ps (nameOf c sname) pd (nameOf c name)) := by
  intro v h hro
  unfold coreRenameSub
  rw [rwOp_run hro, run_bind]
  rcases mountDir hc h.wf ps true with ⟨e, h1, h2⟩ | ⟨fs, sp, v1, hds, h2, frs, sdt, _⟩
  · exact ⟨.error e, v, ⟨by rw [h2], .err (NotDir.ne h1)⟩, Eff.refl h, rfl, .srcDir h1⟩
  rw [h2]; dsimp only
  have q1 := frs.quiet
  have hi1 := (q1.eff hc h).inv
  -- both parents
  have both : (∃ e, (if ps = pd then pure none else do
        let dp ← inodeMount c pd .dir true
        pure (some dp) : VM (Option Cinode)) v1 = (.error e, v1) ∧ Spec.NotDir (files c v) pd e) ∨
      ∃ dp v2 fd, (if ps = pd then pure none else do
        let dp ← inodeMount c pd .dir true
        pure (some dp) : VM (Option Cinode)) v1 = (.ok dp, v2) ∧ Quiet c v1 v2 ∧ Spec.IsDir (files c v) pd fd ∧
        PM c v2 ⟨sp, dp⟩ ps pd (dirOf c fs) (dirOf c fd) := by
    have mds := h.now.mdir hds frs
    by_cases e : ps = pd
    · right
      rw [if_pos e]
      refine ⟨none, v1, fs, rfl, .refl hi1.wf, e ▸ hds, ⟨mds, mds, frs.ino, frs.ino.trans e, sdt rfl, sdt rfl, Or.inl ⟨e, rfl, rfl⟩⟩⟩
    · rw [if_neg e, run_bind]
      rcases mountDir hc hi1.wf pd true with ⟨er, h1, h2⟩ | ⟨fd, dp, v2, hdd, h2, frd, ddt, _⟩
      · left; rw [h2]; exact ⟨er, rfl, by rw [← q1.files]; exact h1⟩
      · right; rw [h2]
        have hdd' : Spec.IsDir (files c v) pd fd := ⟨by rw [← q1.files]; exact hdd.1, hdd.2⟩
        have mdd := hi1.now.mdir hdd frd
        exact ⟨some dp, v2, fd, rfl, frd.quiet, hdd', ⟨mds.frame hi1.wf frd.ch (by rw [frs.ino]; exact e), mdd, frs.ino, frd.ino, sdt rfl, ddt rfl, Or.inr ⟨e, rfl⟩⟩⟩
  have hif : ∀ (k : Option Cinode → VM Unit), (if ps = pd then (pure none : VM (Option Cinode)) >>= k else inodeMount c pd .dir true >>= fun dp => pure (some dp) >>= k) v1 =
      ((if ps = pd then pure none else do
        let dp ← inodeMount c pd .dir true
        pure (some dp) : VM (Option Cinode)) >>= k) v1 := by
    intro k
    split
    · rfl
    · simp only [run_bind]
      rcases inodeMount c pd .dir true v1 with ⟨_ | _, _⟩ <;> rfl
  rw [hif, run_bind]
  rcases both with ⟨e, er, why⟩ | ⟨dp, v2, fd, er, q2, hdd, pm⟩
  · rw [er]
    exact ⟨.error e, v1, ⟨rfl, .err (NotDir.ne why)⟩, q1.eff hc h, q1.files, .dstDir why⟩
  rw [er]; dsimp only
  have q := q1.trans hc q2
  have E2 := q.eff hc h
  have hi2 := E2.inv
  have quit : ∀ (e : Err), Spec.NoRename c ps (nameOf c sname) pd (nameOf c name) (files c v) e →
      Eff c (NsOk c) v v2 ∧ Spec.Rename c ps (nameOf c sname) pd (nameOf c name) (files c v) (.error e) (files c v2) :=
    fun e hx => ⟨E2, q.files, hx⟩
  change ∃ r v', ((dirRename c ⟨sp, dp⟩ sname name >>= renameFinish c) v2 = (r, v') ∧ _) ∧ _
  have ents : ∀ k, entOf c (files c v) ps k = (dirOf c fs).slot k := h.now.ent hc hp hds
  have entd : ∀ k, entOf c (files c v) pd k = (dirOf c fd).slot k := h.now.ent hc hp hdd
  have hdirS : sp.dir = true := by rw [pm.src.mnt.dir]; exact decide_eq_true pm.src.file.mode
  have hdirD : (Parents.mk sp dp).getDst.dir = true := by rw [pm.dst.mnt.dir]; exact decide_eq_true pm.dst.file.mode
  unfold dirRename
  rw [if_neg (by rw [pm.sdirty, pm.ddirty]; simp), if_neg (by rw [hdirD]; simp [hdirS]), nameLen_nameOf hn]
  dsimp only
  by_cases hdots : isDots name (nameOf c name).length = true
  · rw [if_pos hdots]
    obtain ⟨E, S⟩ := quit .einval (.dots (isDots_iff.1 hdots))
    exact ⟨.error .einval, v2, ⟨rfl, .err (by simp)⟩, E, S⟩
  rw [if_neg hdots, run_bind, run_bind]
  -- the old name
  rcases dirLookup_spec hc hp hi2.wf pm.src hsn with ⟨g, e⟩ | ⟨g, e⟩ | ⟨_, _, r, sp', e, m1, s1, L⟩
  · rw [onSrcP_run e]
    obtain ⟨E, S⟩ := quit .einval (.srcName (Or.inl ⟨g, rfl⟩))
    exact ⟨.error .einval, v2, ⟨rfl, .err (by simp)⟩, E, S⟩
  · rw [onSrcP_run e]
    obtain ⟨E, S⟩ := quit .enametoolong (.srcName (Or.inr ⟨g, rfl⟩))
    exact ⟨.error .enametoolong, v2, ⟨rfl, .err (by simp)⟩, E, S⟩
  rw [onSrcP_run e]; dsimp only
  have pm1 := pm.roSrc m1 s1
  rw [run_bind, show (ofExcept (.ok r) : VM LookupRes) v2 = (.ok r, v2) from rfl]; dsimp only
  rcases r with ⟨srcIdx, i⟩ | fr0
  swap
  · obtain ⟨E, S⟩ := quit .enoent (.enoent fun j ⟨k, hk⟩ => L.1 k j (by rw [← ents]; exact hk))
    exact ⟨.error .enoent, v2, ⟨rfl, .err (by simp)⟩, E, S⟩
  dsimp only
  have hHi : Has c (files c v) ps (nameOf c sname) i := ⟨srcIdx, by rw [ents]; exact L⟩
  rw [run_bind]
  -- the new name
  rcases dirLookup_spec hc hp hi2.wf pm1.dst hn with ⟨g, e⟩ | ⟨g, e⟩ | ⟨g1, g2, r, dp', e, m2, s2, L'⟩
  · rw [onDstP_run e]
    obtain ⟨E, S⟩ := quit .einval (.dstName (Or.inl ⟨g, rfl⟩))
    exact ⟨.error .einval, v2, ⟨rfl, .err (by simp)⟩, E, S⟩
  · rw [onDstP_run e]
    obtain ⟨E, S⟩ := quit .enametoolong (.dstName (Or.inr ⟨g, rfl⟩))
    exact ⟨.error .enametoolong, v2, ⟨rfl, .err (by simp)⟩, E, S⟩
  rw [onDstP_run e]; dsimp only
  have pm2 := pm1.roDst m2 s2
  have hok := nameOk_of (c := c) hn g1 g2 (by simpa using hdots)
  rw [run_bind]
  have final : ∀ dstIdx dstIno, ((dirOf c fd).slot dstIdx = none ∧ dstIno = 0 ∧ dstIdx ≤ (dirOf c fd).n ∧ dstIdx < c.direntsMax ∧ ∀ k j, (dirOf c fd).slot k ≠ some (j, nameOf c name)) ∨
      ((dirOf c fd).slot dstIdx = some (dstIno, nameOf c name) ∧ c.renameAtomic = true) → i ≠ dstIno →
      ∃ r v', ((renameMove c (((Parents.mk sp dp).putSrc sp').putDst dp') srcIdx i dstIdx dstIno name (nameOf c name).length >>= renameFinish c) v2 = (r, v') ∧ Nospc c 9 pd false v r v') ∧ Eff c (NsOk c) v v' ∧
        Spec.Rename c ps (nameOf c sname) pd (nameOf c name) (files c v) r (files c v') := by
    intro dstIdx dstIno hd hij
    obtain ⟨r, v', x1, x2, x3⟩ := renameMove_spec hc hp hi2 pm2 hn L hok hd hij
    rw [q.files] at x3
    exact ⟨r, v', ⟨x1.1, fun hh => ⟨Or.inr (by rw [← q.count]; exact x1.2 hh), fun h => by cases h⟩⟩, ⟨x2.inv, E2.step.trans hc x2.step, x2.readOnly.trans E2.readOnly, RegK.after q.files q.kp x2.reg⟩, x3⟩
  rcases r with ⟨dstIdx, j⟩ | _ | k
  · have hHj : Has c (files c v) pd (nameOf c name) j := ⟨dstIdx, by rw [entd]; exact L'⟩
    by_cases hat : c.renameAtomic = true
    · rw [show renameTarget c (.ok (.found dstIdx j)) v2 = (.ok (dstIdx, j), v2) by simp only [renameTarget, hat, if_true]; rfl]
      dsimp only
      by_cases hij : i = j
      · rw [if_pos ⟨hat, hij⟩]
        subst hij
        exact ⟨.ok (), v2, ⟨rfl, .ok _⟩, E2, Or.inl ⟨q.files, hat, i, hHi, hHj⟩⟩
      · rw [if_neg (fun hx => hij hx.2)]
        exact final dstIdx j (Or.inr ⟨L', hat⟩) hij
    · rw [show renameTarget c (.ok (.found dstIdx j)) v2 = (.error .eexist, v2) by simp only [renameTarget, hat]; rfl]
      obtain ⟨E, S⟩ := quit .eexist (.eexist (by simpa using hat) hHj)
      exact ⟨.error .eexist, v2, ⟨rfl, .err (by simp)⟩, E, S⟩
  · rw [show renameTarget c (.ok (.missing none)) v2 = (.error .enospc, v2) from rfl]
    obtain ⟨E, S⟩ := quit .enospc (.full hHi hok (fun j ⟨k, hk⟩ => L'.1 k j (by rw [← entd]; exact hk))
      fun k hk => by rw [entd]; exact L'.2.2 k (by rw [L'.2.1]; exact hk))
    exact ⟨.error .enospc, v2, ⟨rfl, fun _ => ⟨Or.inl fun k hk => by rw [entd]; exact L'.2.2 k (by rw [L'.2.1]; exact hk), fun h => by cases h⟩⟩, E, S⟩
  · rw [show renameTarget c (.ok (.missing (some k))) v2 = (.ok (k, 0), v2) from rfl]
    dsimp only
    have hi0 : i ≠ 0 := by
      have := pm.src.ok.ino _ _ _ L
      rintro rfl; simp [Conf.inodeValid] at this
    rw [if_neg (fun hx => hi0 hx.2)]
    obtain ⟨l1, l2, l3, l4⟩ := L'
    exact final k 0 (Or.inl ⟨l4, rfl, l2, l3, l1⟩) hi0

theorem coreRenameSub_spec (hc : c.Ok) (hp : c.PosixOk) (ps : Nat) {sname : List Byte} (hsn : CStr.Ok sname) (pd : Nat) {name : List Byte} (hn : CStr.Ok name) :
    OpSpec c (NsOk c) (coreRenameSub c ps sname pd name) (Spec.Rename c ps (nameOf c sname) pd (nameOf c name)) := (coreRenameSub_full hc hp ps hsn pd hn).spec

end RedFs
