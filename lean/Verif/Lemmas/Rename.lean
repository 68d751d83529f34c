import Verif.Lemmas.CoreLink
set_option linter.unusedSimpArgs false
set_option linter.unusedVariables false
namespace RedFs
open M Bitmap Vol Str

variable {c : Conf} {v v' : Vol} {ci ci' : Cinode} {F F' : Files}

/-! ### The check for cycles -/

theorem node_zero (h : Wf c v) : (graphOf c (files c v)).node 0 = none := by
  apply node_none
  have := live_iff h 0
  cases hf : files c v 0 with
  | none => rfl
  | some f => rw [hf] at this; simp [Conf.inodeValid] at this

theorem node_some {i : Nat} {nd : Node} (h : (graphOf c F).node i = some nd) : ∃ f, F i = some f ∧ nd = ⟨decide (f.mode = modeDir), f.nlink, f.parent⟩ := by
  change (F i).map _ = _ at h
  cases hf : F i with
  | none => rw [hf] at h; cases h
  | some f => rw [hf] at h; exact ⟨f, rfl, (Option.some.inj h).symm⟩

theorem cyclicLoop_spec (hc : c.Ok) {P : Files → Prop} (h : Inv c (NsOk c) v) {src : Nat} (h2 : src ≠ 2) (h0 : src ≠ 0) :
    ∀ fuel next, (next = 0 ∧ 0 < fuel ∨ ∃ n, (graphOf c (files c v)).Depth next n ∧ n < fuel) →
      ∃ r, cyclicLoop c src fuel next v = (.ok (some r), v) ∧ (src = r ↔ (graphOf c (files c v)).Below src next) := by
  have hz := node_zero h.wf
  intro fuel
  induction fuel with
  | zero => rintro next (⟨_, h⟩ | ⟨n, _, h⟩) <;> omega
  | succ fuel ih =>
    intro next hn
    unfold cyclicLoop
    by_cases e1 : next = src
    · rw [if_pos (Or.inl e1)]
      exact ⟨next, rfl, by rw [e1]; exact ⟨fun _ => .refl, fun _ => rfl⟩⟩
    by_cases e2 : next = 2
    · rw [if_pos (Or.inr (Or.inl e2))]
      refine ⟨next, rfl, ⟨fun e => absurd e.symm e1, fun hb => ?_⟩⟩
      rw [e2] at hb
      rcases Graph.below_root h.now.graph.root hz hb with e | e
      · exact absurd e h2
      · exact absurd e h0
    by_cases e3 : next = 0
    · rw [if_pos (Or.inr (Or.inr e3))]
      refine ⟨next, rfl, ⟨fun e => absurd e.symm e1, fun hb => ?_⟩⟩
      rw [e3] at hb
      cases hb with
      | refl => exact absurd rfl h0
      | step g => rw [hz] at g; cases g
    rw [if_neg (by rintro (h | h | h); exact e1 h; exact e2 h; exact e3 h), run_bind]
    rcases hn with ⟨hn, _⟩ | ⟨n, hn, hlt⟩
    · exact absurd hn e3
    cases hn with
    | root => exact absurd rfl e2
    | step g1 g2 g3 g4 =>
      rename_i n nd
      obtain ⟨f, hf, rfl⟩ := node_some g2
      have hmd : f.mode = modeDir := of_decide_eq_true g3
      rcases mountDir hc h.wf next false with ⟨e, g, _⟩ | ⟨f', ci, v1, hd, e, fr, _, hnb⟩
      · rcases g with ⟨_, g⟩ | ⟨_, f', g⟩
        · rw [hf] at g; cases g
        · have := g.1; rw [hf] at this; injection this with this; subst this; exact absurd (hmd.symm.trans g.2) modes_ne
      obtain ⟨rfl, _⟩ := hnb rfl
      have hff : f' = f := by have := hd.1; rw [hf] at this; injection this with this; exact this.symm
      subst hff
      rw [e]; dsimp only
      rw [fr.parent]
      obtain ⟨r, e', hr⟩ := ih f'.parent (Or.inr ⟨n, g4, by omega⟩)
      refine ⟨r, e', hr.trans ⟨fun hb => .step g2 g3 hb, fun hb => ?_⟩⟩
      cases hb with
      | refl => exact absurd rfl e1
      | step k1 k2 k3 => rw [g2] at k1; cases k1; exact k3

/-- A directory is not its own parent. -/
theorem GraphOk.not_self {G : Graph} (h : GraphOk G) {p k : Nat} : G.slot p k ≠ some p := by
  intro hk
  obtain ⟨h2, hl⟩ := h.live p k p hk
  obtain ⟨nd, hn⟩ := Option.isSome_iff_exists.1 hl
  obtain ⟨nd', hn', hd⟩ := h.from_ p k p hk
  rw [hn] at hn'; cases hn'
  have hp := h.parent p k p nd hk hn hd
  obtain ⟨n, hD⟩ := h.tree p nd hn hd
  cases hD with
  | root => exact h2 rfl
  | step g1 g2 g3 g4 =>
    rw [hn] at g2; cases g2
    rw [hp] at g4
    have := g4.uniq (.step g1 hn g3 (by rw [hp]; exact g4))
    omega

theorem cyclicCheck_spec (hc : c.Ok) (h : Inv c (NsOk c) v) {src : Nat} (hv : c.inodeValid src = true) (h2 : src ≠ 2) (hnb : ci.nodeBuf ≠ none)
    (hd : ci.dir = true) {f : AFile} (hf : Spec.IsDir (files c v) ci.ino f) (hpar : src ≠ ci.ino → ci.node.pinode = f.parent) :
    ((graphOf c (files c v)).Below src ci.ino ∧ cyclicCheck c src ci v = (.error .einval, v)) ∨
    (¬ (graphOf c (files c v)).Below src ci.ino ∧ cyclicCheck c src ci v = (.ok (), v)) := by
  unfold cyclicCheck
  rw [if_neg (by rw [hv]; simp; exact hnb)]
  by_cases e : src = ci.ino
  · left; rw [if_pos e]; exact ⟨by rw [e]; exact .refl, rfl⟩
  rw [if_neg e, if_neg (by rw [hd]; simp), run_bind, hpar e]
  have h0 : src ≠ 0 := by rintro rfl; simp [Conf.inodeValid] at hv
  have hic : 1 ≤ c.inodeCount := by unfold Conf.inodeValid at hv; simp at hv; omega
  have hnode := node_of (c := c) hf.1
  have hdd : (decide (f.mode = modeDir)) = true := decide_eq_true hf.2
  have hbelow : (graphOf c (files c v)).Below src ci.ino ↔ (graphOf c (files c v)).Below src f.parent := by
    constructor
    · intro hb
      cases hb with
      | refl => exact absurd rfl e
      | step k1 k2 k3 => rw [hnode] at k1; cases k1; exact k3
    · intro hb; exact .step hnode hdd hb
  have hstart : f.parent = 0 ∧ 0 < c.inodeCount ∨ ∃ n, (graphOf c (files c v)).Depth f.parent n ∧ n < c.inodeCount := by
    obtain ⟨n, hD⟩ := h.now.graph.tree ci.ino _ hnode hdd
    have hlt := hD.lt hic (fun y hy => by
      change ((files c v y).map _).isSome = true at hy
      rw [Option.isSome_map] at hy
      have := files_valid hc h.wf hy
      unfold Conf.inodeValid at this; simpa using this)
    cases hx : n with
    | zero =>
      subst hx
      cases hg : ci.ino with
      | _ =>
      left
      have : ci.ino = 2 := by generalize ci.ino = y at hD; cases hD; rfl
      rw [this, h.now.graph.root] at hnode
      injection hnode with hnode
      injection hnode with _ _ hnode
      exact ⟨hnode.symm, hic⟩
    | succ m =>
      right
      subst hx
      generalize ci.ino = y at hD hnode
      cases hD with
      | step g1 g2 g3 g4 => rw [hnode] at g2; cases g2; exact ⟨m, g4, by omega⟩
  obtain ⟨r, e', hr⟩ := cyclicLoop_spec (P := NsOk c) hc h h2 h0 c.inodeCount f.parent hstart
  rw [e']; dsimp only
  by_cases hb : (graphOf c (files c v)).Below src f.parent
  · left; exact ⟨hbelow.2 hb, by rw [if_pos (hr.2 hb)]; rfl⟩
  · right; exact ⟨fun h => hb (hbelow.1 h), by rw [if_neg (fun e => hb (hr.1 e))]; rfl⟩

/-! ### The two parent directories -/

/-- `*pDstPInode` / `*pSrcPInode` after an operation on it. -/
def Parents.putDst (p : Parents) (ci : Cinode) : Parents :=
  match p.dst with
  | some _ => { p with dst := some ci }
  | none => { p with src := ci }
def Parents.putSrc (p : Parents) (ci : Cinode) : Parents := { p with src := ci }

theorem onDstP_run {α : Type} {P : Parents} {m : DM α} {r : Except Err α} (h : m ⟨P.getDst, v⟩ = (r, ⟨ci', v'⟩)) :
    onDstP P m v = (.ok (r, P.putDst ci'), v') := by
  unfold onDstP
  rw [run_bind, onCi_eq h]
  dsimp only
  unfold Parents.putDst
  cases P.dst <;> rfl
theorem onSrcP_run {α : Type} {P : Parents} {m : DM α} {r : Except Err α} (h : m ⟨P.src, v⟩ = (r, ⟨ci', v'⟩)) :
    onSrcP P m v = (.ok (r, P.putSrc ci'), v') := by
  unfold onSrcP
  rw [run_bind, onCi_eq h]; rfl

/-- Both parents are mounted. -/
structure PM (c : Conf) (v : Vol) (P : Parents) (ps pd : Nat) (ds dd : ADir) : Prop where
  src : MDir c v P.src ds
  dst : MDir c v P.getDst dd
  si : P.src.ino = ps
  di : P.getDst.ino = pd
  sdirty : P.src.dirty = true
  ddirty : P.getDst.dirty = true
  same : (ps = pd ∧ P.dst = none ∧ ds = dd) ∨ (ps ≠ pd ∧ P.dst.isSome = true)

theorem getDst_none {P : Parents} (h : P.dst = none) : P.getDst = P.src := by unfold Parents.getDst; rw [h]; rfl
theorem putDst_none {P : Parents} {x : Cinode} (h : P.dst = none) : P.putDst x = ⟨x, none⟩ := by
  unfold Parents.putDst; rw [h]
theorem putDst_some {P : Parents} {x : Cinode} (h : P.dst.isSome = true) : P.putDst x = ⟨P.src, some x⟩ := by
  obtain ⟨y, hy⟩ := Option.isSome_iff_exists.1 h
  unfold Parents.putDst; rw [hy]
theorem getDst_some {P : Parents} (h : P.dst.isSome = true) (x : Cinode) : (P.putSrc x).getDst = P.getDst := by
  obtain ⟨y, hy⟩ := Option.isSome_iff_exists.1 h
  unfold Parents.putSrc Parents.getDst; simp only; rw [hy]; rfl

section
variable {P : Parents} {ps pd : Nat} {ds dd d' : ADir}

theorem PM.frame {I : Nat → Prop} (h : PM c v P ps pd ds dd) (hw : Wf c v) (ch : Ch c v v' I) (h1 : ¬ I ps) (h2 : ¬ I pd) : PM c v' P ps pd ds dd :=
  ⟨h.src.frame hw ch (by rw [h.si]; exact h1), h.dst.frame hw ch (by rw [h.di]; exact h2), h.si, h.di, h.sdirty, h.ddirty, h.same⟩

/-- After reading the destination directory. -/
theorem PM.roDst (h : PM c v P ps pd ds dd) (m : Mnt c v ci') (s : CiSame P.getDst ci') : PM c v (P.putDst ci') ps pd ds dd := by
  have hm := h.dst.ro m s
  rcases h.same with ⟨h1, h2, h3⟩ | ⟨h1, h2⟩
  · rw [putDst_none h2]
    have hi : ci'.ino = ps := by rw [s.ino, getDst_none h2]; exact h.si
    have hdt : ci'.dirty = true := by rw [s.dirty]; exact h.ddirty
    exact ⟨h3 ▸ hm, hm, hi, hi.trans h1, hdt, hdt, Or.inl ⟨h1, rfl, h3⟩⟩
  · rw [putDst_some h2]
    exact ⟨h.src, hm, h.si, by show ci'.ino = pd; rw [s.ino]; exact h.di, h.sdirty, by show ci'.dirty = true; rw [s.dirty]; exact h.ddirty, Or.inr ⟨h1, rfl⟩⟩

/-- After reading the source directory. -/
theorem PM.roSrc (h : PM c v P ps pd ds dd) (m : Mnt c v ci') (s : CiSame P.src ci') : PM c v (P.putSrc ci') ps pd ds dd := by
  have hm := h.src.ro m s
  have hi : ci'.ino = ps := by rw [s.ino]; exact h.si
  have hdt : ci'.dirty = true := by rw [s.dirty]; exact h.sdirty
  rcases h.same with ⟨h1, h2, h3⟩ | ⟨h1, h2⟩
  · have hg : (P.putSrc ci').getDst = ci' := getDst_none h2
    exact ⟨hm, by rw [hg]; exact h3 ▸ hm, hi, by rw [hg]; exact hi.trans h1, hdt, by rw [hg]; exact hdt, Or.inl ⟨h1, h2, h3⟩⟩
  · have hg := getDst_some h2 ci'
    exact ⟨hm, by rw [hg]; exact h.dst, hi, by rw [hg]; exact h.di, hdt, by rw [hg]; exact h.ddirty, Or.inr ⟨h1, h2⟩⟩

/-- After changing the destination directory. -/
theorem PM.updDst {f' : AFile} (h : PM c v P ps pd ds dd) (hw : Wf c v) (U : DUpd c v v' P.getDst ci' f' d') (m : Mnt c v' ci') (hdt : ci'.dirty = true) :
    PM c v' (P.putDst ci') ps pd (if ps = pd then d' else ds) d' := by
  have hm := U.mdir m
  have hi : ci'.ino = pd := by rw [U.ed.ino]; exact h.di
  rcases h.same with ⟨h1, h2, h3⟩ | ⟨h1, h2⟩
  · rw [putDst_none h2, if_pos h1]
    exact ⟨hm, hm, hi.trans h1.symm, hi, hdt, hdt, Or.inl ⟨h1, rfl, rfl⟩⟩
  · rw [putDst_some h2, if_neg h1]
    exact ⟨h.src.frame hw U.ed.ch (by rw [h.si, h.di]; exact h1), hm, h.si, hi, h.sdirty, hdt, Or.inr ⟨h1, rfl⟩⟩

/-- After an attempt to change the source directory. -/
theorem PM.failSrc (h : PM c v P ps pd ds dd) (hw : Wf c v) (D : DFail c v v' P.src ci' ds) : PM c v' (P.putSrc ci') ps pd ds dd := by
  have hm := D.upd.mdir D.mnt
  have hi : ci'.ino = ps := by rw [D.upd.ed.ino]; exact h.si
  rcases h.same with ⟨h1, h2, h3⟩ | ⟨h1, h2⟩
  · have hg : (P.putSrc ci').getDst = ci' := getDst_none h2
    exact ⟨hm, by rw [hg]; exact h3 ▸ hm, hi, by rw [hg]; exact hi.trans h1, D.dirty, by rw [hg]; exact D.dirty, Or.inl ⟨h1, h2, h3⟩⟩
  · have hg := getDst_some h2 ci'
    exact ⟨hm, by rw [hg]; exact h.dst.frame hw D.upd.ed.ch (by rw [h.si, h.di]; exact fun e => h1 e.symm), hi, by rw [hg]; exact h.di, D.dirty, by rw [hg]; exact h.ddirty, Or.inr ⟨h1, h2⟩⟩
end

/-- Directory `q` is still a directory, with the same attributes. -/
def KeptDir (c : Conf) (F F' : Files) (q : Nat) : Prop :=
  ∃ f f', F q = some f ∧ F' q = some f' ∧ f.mode = modeDir ∧ DirFile c f' (dirOf c f') ∧ DirOk c (dirOf c f') ∧ f'.nlink = f.nlink ∧ f'.parent = f.parent

theorem DFail.files {d : ADir} (hw : Wf c v) (m : Mnt c v ci) (D : DFail c v v' ci ci' d) : files c v' = files c v := by
  funext j
  by_cases e : j = ci.ino
  · rw [e, D.upd.ed.file, hw.file m]
  · exact D.upd.ed.ch.files j e

theorem MDir.unique (hc : c.Ok) (hp : c.PosixOk) {d d' : ADir} (h : MDir c v ci d) (h' : MDir c v ci d') : d = d' := by
  rw [← h.file.dirOf hc hp h.ok, h'.file.dirOf hc hp h'.ok]

/-- Writing the new entry and removing the old one. -/
theorem renameEntries_spec (hc : c.Ok) (hp : c.PosixOk) {P : Parents} {ps pd : Nat} {ds dd : ADir} (hw : Wf c v) (pm : PM c v P ps pd ds dd)
    {i srcIdx dstIdx dstIno : Nat} {nm name : List Byte} (hn : CStr.Ok name) (hs : ds.slot srcIdx = some (i, nm)) (hok : NameOk c (nameOf c name))
    (hd : (dd.slot dstIdx = none ∧ dstIno = 0 ∧ dstIdx ≤ dd.n ∧ dstIdx < c.direntsMax ∧ ∀ k j, dd.slot k ≠ some (j, nameOf c name)) ∨
      (dd.slot dstIdx = some (dstIno, nameOf c name) ∧ c.renameAtomic = true))
    (hne : ps = pd → dstIdx ≠ srcIdx) :
    (∃ v', renameEntries c P i srcIdx dstIdx dstIno name (nameOf c name).length v = (.error .enospc, v') ∧ Ch c v v' (fun j => j = ps ∨ j = pd) ∧ files c v' = files c v ∧
      (v.useReserved = false → tot v ≤ tot v' ∨ c.reserved ≤ tot v') ∧ freeBlockCount c v < 9) ∨
    ∃ P' v', renameEntries c P i srcIdx dstIdx dstIno name (nameOf c name).length v = (.ok P', v') ∧ P'.getDst.ino = pd ∧ Ch c v v' (fun j => j = ps ∨ j = pd) ∧
      (v.useReserved = false → tot v ≤ tot v' ∨ c.reserved ≤ tot v') ∧
      KeptDir c (files c v) (files c v') ps ∧ KeptDir c (files c v) (files c v') pd ∧
      ∀ q m, entOf c (files c v') q m = if q = pd ∧ m = dstIdx then some (i, nameOf c name) else if q = ps ∧ m = srcIdx then none else entOf c (files c v) q m := by
  have hiv := pm.src.ok.ino _ _ _ hs
  have hko : dstIdx ≤ dd.n ∧ dstIdx < c.direntsMax ∧ ∀ k' i', dd.slot k' = some (i', nameOf c name) → k' = dstIdx := by
    rcases hd with ⟨_, _, h1, h2, h3⟩ | ⟨h1, _⟩
    · exact ⟨h1, h2, fun k' i' h => absurd h (h3 k' i')⟩
    · have hlt : dstIdx < dd.n := by
        by_contra hx; rw [pm.dst.ok.out _ (by omega)] at h1; cases h1
      exact ⟨by omega, Nat.lt_of_lt_of_le hlt pm.dst.ok.max, fun k' i' h => pm.dst.ok.uniq k' dstIdx i' dstIno _ h h1⟩
  have hfs : files c v ps = some (ciFile c v P.src) := by rw [← pm.si]; exact hw.file pm.src.mnt
  have hfd : files c v pd = some (ciFile c v P.getDst) := by rw [← pm.di]; exact hw.file pm.dst.mnt
  have hblk : dstIdx / c.dpb < c.dataBlocks := blk_max hp hko.2.1
  unfold renameEntries
  rw [run_bind]
  rcases dirEntryWrite_set hc hp hw pm.dst pm.ddirty hn hko.2.1 hko.1 hiv hok hko.2.2 with ⟨ci1, v1, e1, D1, _, g6⟩ | ⟨ci1, v1, f1, e1, U1, m1, dt1, t1, t1', t1'', n1, sp1⟩
  · left
    rw [onDstP_run e1]; dsimp only
    refine ⟨v1, rfl, D1.upd.ed.ch.mono (fun j hj => Or.inr (by rw [hj, pm.di])), D1.files hw pm.dst.mnt, fun _ => Or.inl (by rw [D1.tot]), by omega⟩
  rw [onDstP_run e1]; dsimp only
  rw [run_bind, show (ofExcept (.ok ()) : VM Unit) v1 = (.ok (), v1) from rfl]; dsimp only
  have ch1 : Ch c v v1 (fun j => j = ps ∨ j = pd) := U1.ed.ch.mono (fun j hj => Or.inr (by rw [hj, pm.di]))
  have pm1 := pm.updDst hw U1 m1 dt1
  have hw1 := ch1.wf
  have hf1 : files c v1 pd = some f1 := by have := U1.ed.file; rwa [pm.di] at this
  have hs1 : (if ps = pd then dd.set dstIdx (i, nameOf c name) else ds).slot srcIdx = some (i, nm) := by
    rcases pm.same with ⟨h1, _, h3⟩ | ⟨h1, _⟩
    · rw [if_pos h1]
      show (if srcIdx = dstIdx then _ else dd.slot srcIdx) = _
      rw [if_neg (fun e => hne h1 e.symm), ← h3]; exact hs
    · rw [if_neg h1]; exact hs
  have ent1 : ∀ q m, entOf c (files c v1) q m = if q = pd ∧ m = dstIdx then some (i, nameOf c name) else entOf c (files c v) q m := by
    intro q m
    by_cases e : q = pd
    · subst e
      rw [entOf_file hc hp hf1 U1.file U1.ok, entOf_file hc hp hfd pm.dst.file pm.dst.ok]
      show (if m = dstIdx then _ else _) = _
      by_cases e2 : m = dstIdx
      · rw [if_pos e2, if_pos ⟨rfl, e2⟩]
      · rw [if_neg e2, if_neg (fun h => e2 h.2)]
    · rw [if_neg (fun h => e h.1)]
      exact entOf_congr (U1.ed.ch.files q (by rw [pm.di]; exact e)) m
  rw [run_bind]
  rcases dirDelete_spec hc hp hw1 pm1.src pm1.sdirty (k := srcIdx) (by rw [hs1]; simp) with ⟨ci2, v2, e2, D2, _, hlow⟩ | ⟨ci2, v2, f2, e2, U2, t2⟩
  · -- the old entry cannot be removed
    left
    have h9 : freeBlockCount c v < 9 := by
      have h3 : freeBlockCount c v1 < 3 := by
        rcases hlow with hlow | hlow
        · rw [brCost_eq] at hlow
          have := costL_le (c := c) (s := ⟨(P.putDst ci1).src, v1⟩) (V := tree c v1 (P.putDst ci1).src.ino) (pathL (posOf c (srcIdx / c.dpb)))
          have := pathL_length (posOf c (srcIdx / c.dpb))
          omega
        · unfold Conf.shrinkNeed at hlow
          (repeat' split at hlow) <;> omega
      revert h3
      unfold freeBlockCount
      rw [ch1.useReserved]
      split <;> omega
    rw [onSrcP_run e2]; dsimp only
    have pm2 := pm1.failSrc hw1 D2
    have ch2' : Ch c v1 v2 (fun j => j = ps ∨ j = pd) := D2.upd.ed.ch.mono (fun j hj => Or.inl (by rw [hj, pm1.si]))
    have ch2 := ch1.trans hc ch2'
    have hw2 := ch2.wf
    have hF2 := D2.files hw1 pm1.src.mnt
    have n2 : NewAt c v2 (tree c v2 (((P.putDst ci1).putSrc ci2).getDst).ino) (dstIdx / c.dpb) := by
      rw [pm.di] at n1
      rw [pm2.di]
      rcases pm.same with ⟨h1, _, _⟩ | ⟨h1, _⟩
      · rw [← h1] at n1 ⊢
        have := D2.new _ hblk (by rw [pm1.si]; exact n1)
        rwa [pm1.si] at this
      · exact NewAt.other hc hw1 D2.upd.ed (i := pd) (by rw [pm1.si]; exact fun e => h1 e.symm) hblk n1
    have hd2 : ((P.putDst ci1).putSrc ci2).getDst.node.nlink = (ciFile c v P.getDst).nlink ∧ ((P.putDst ci1).putSrc ci2).getDst.node.pinode = (ciFile c v P.getDst).parent := by
      have h3 := hw2.file pm2.dst.mnt
      rw [pm2.di, hF2, hf1] at h3
      injection h3 with h3
      have h4 := U1.nlink; have h5 := U1.parent
      rw [h3] at h4 h5
      exact ⟨h4, h5⟩
    -- the state after the entry has been put back
    have back : ∀ (ci3 : Cinode) (v3 : Vol) (f3 : AFile), DUpd c v2 v3 ((P.putDst ci1).putSrc ci2).getDst ci3 f3 dd →
        Ch c v v3 (fun j => j = ps ∨ j = pd) ∧ files c v3 = files c v := by
      intro ci3 v3 f3 U3
      refine ⟨ch2.trans hc (U3.ed.ch.mono (fun j hj => Or.inr (by rw [hj, pm2.di]))), ?_⟩
      funext j
      by_cases e : j = pd
      · rw [e, hfd]
        have := U3.ed.file; rw [pm2.di] at this; rw [this]
        congr 1
        exact DirFile.unique pm.dst.file U3.file (by rw [U3.nlink]; exact hd2.1) (by rw [U3.parent]; exact hd2.2)
      · have h1 := U3.ed.ch.files j (by rw [pm2.di]; exact e)
        rw [h1, hF2]
        exact U1.ed.ch.files j (by rw [pm.di]; exact e)
    have rsv1 : v.useReserved = false → tot v ≤ tot v2 ∨ c.reserved ≤ tot v2 := by
      intro hu
      rw [D2.tot]
      rcases t1'' hu with t | t
      · exact Or.inl (by omega)
      · exact Or.inr t
    rw [if_pos rfl]
    unfold renameRevert
    rw [run_bind]
    rcases hd with ⟨h1, h2, h3, h4, h5⟩ | ⟨h1, h2⟩
    · rw [if_neg (fun h => h.2 h2)]
      rcases dirDelete_spec hc hp hw2 pm2.dst pm2.ddirty (k := dstIdx) (by show (if dstIdx = dstIdx then _ else _) ≠ none; rw [if_pos rfl]; simp) with ⟨ci3, v3, e3, D3, hx, _⟩ | ⟨ci3, v3, f3, e3, U3, t3⟩
      · refine absurd n2 (hx (fun hl => ?_))
        change dstIdx + 1 = max dd.n (dstIdx + 1) at hl
        by_cases hk0 : dstIdx = 0
        · rw [hk0]; rfl
        · have hk : dstIdx = dd.n := by
            by_contra hc'
            -- the entry is not the last one
            have hlt : dstIdx < dd.n := by omega
            have : dstIdx + 1 = dd.n := by omega
            exact pm.dst.ok.last (by omega) (by rw [← this, Nat.add_sub_cancel]; exact h1)
          obtain ⟨z, hz⟩ : ∃ z, dstIdx = z + 1 := ⟨dstIdx - 1, by omega⟩
          have hl : dd.slot z ≠ none := by
            have := pm.dst.ok.last (by omega)
            rwa [show dd.n - 1 = z by omega] at this
          have hg : (dd.set dstIdx (i, nameOf c name)).slot z ≠ none := by
            show (if z = dstIdx then _ else dd.slot z) ≠ none
            rw [if_neg (by omega)]; exact hl
          generalize (dd.set dstIdx (i, nameOf c name)).slot = S at hg ⊢
          rw [hz]
          unfold lastUsed
          rw [if_neg hg]
      · rw [onDstP_run e3]; dsimp only
        rw [ADir.set_del pm.dst.ok h3 h1] at U3
        obtain ⟨b1, b2⟩ := back _ _ _ U3
        refine ⟨v3, rfl, b1, b2, fun hu => ?_, h9⟩
        rcases rsv1 hu with t | t
        · exact Or.inl (by omega)
        · exact Or.inr (by omega)
    · have hdi := pm.dst.ok.ino _ _ _ h1
      have hne0 : dstIno ≠ 0 := by rintro rfl; simp [Conf.inodeValid] at hdi
      rw [if_pos ⟨h2, hne0⟩]
      have hlt : dstIdx < dd.n := by
        by_contra hx; rw [pm.dst.ok.out _ (by omega)] at h1; cases h1
      rcases dirEntryWrite_set hc hp hw2 pm2.dst pm2.ddirty (k := dstIdx) (i := dstIno) hn hko.2.1 (by show dstIdx ≤ max dd.n (dstIdx + 1); omega) hdi hok (by
          intro k' i' hk'
          change (if k' = dstIdx then _ else dd.slot k') = _ at hk'
          split at hk'
          · assumption
          · exact hko.2.2 k' i' hk') with ⟨ci3, v3, e3, D3, hx, _⟩ | ⟨ci3, v3, f3, e3, U3, m3, dt3, t3, t3', _, _⟩
      · exact absurd n2 (newAt_cost (hx (by show dstIdx < max dd.n (dstIdx + 1); omega)))
      · rw [onDstP_run e3]; dsimp only
        rw [ADir.set_set pm.dst.ok h1] at U3
        obtain ⟨b1, b2⟩ := back _ _ _ U3
        have := t3' (by show (if dstIdx = dstIdx then _ else _) ≠ none; rw [if_pos rfl]; simp)
        refine ⟨v3, rfl, b1, b2, fun hu => ?_, h9⟩
        rcases rsv1 hu with t | t
        · exact Or.inl (by omega)
        · exact Or.inr (by omega)
  · right
    rw [onSrcP_run e2]; dsimp only
    have ch2' : Ch c v1 v2 (fun j => j = ps ∨ j = pd) := U2.ed.ch.mono (fun j hj => Or.inl (by rw [hj, pm1.si]))
    have ch2 := ch1.trans hc ch2'
    have hf2 : files c v2 ps = some f2 := by have := U2.ed.file; rwa [pm1.si] at this
    have hfs1 : files c v1 ps = some (ciFile c v1 (P.putDst ci1).src) := by rw [← pm1.si]; exact hw1.file pm1.src.mnt
    have ent2 : ∀ q m, entOf c (files c v2) q m = if q = ps ∧ m = srcIdx then none else entOf c (files c v1) q m := by
      intro q m
      by_cases e : q = ps
      · subst e
        rw [entOf_file hc hp hf2 U2.file U2.ok, entOf_file hc hp hfs1 pm1.src.file pm1.src.ok]
        show (if m = srcIdx then none else (if q = pd then dd.set dstIdx (i, nameOf c name) else ds).slot m) = _
        by_cases e2 : m = srcIdx
        · rw [if_pos e2, if_pos ⟨rfl, e2⟩]
        · conv_lhs => rw [if_neg e2]
          rw [if_neg (fun h : q = q ∧ m = srcIdx => e2 h.2)]
      · rw [if_neg (fun h => e h.1)]
        exact entOf_congr (U2.ed.ch.files q (by rw [pm1.si]; exact e)) m
    refine ⟨(P.putDst ci1).putSrc ci2, v2, rfl, ?_, ch2, ?_, ?_, ?_, ?_⟩
    · rcases pm.same with ⟨h1, h2, _⟩ | ⟨h1, h2⟩
      · rw [putDst_none h2]
        show ci2.ino = pd
        rw [U2.ed.ino, pm1.si]; exact h1
      · rw [getDst_some (by rw [putDst_some h2]; rfl)]; exact pm1.di
    · intro hu
      rcases t1'' hu with t | t
      · exact Or.inl (by omega)
      · exact Or.inr (by omega)
    · -- the source directory
      have hn2 : f2.nlink = (ciFile c v P.src).nlink ∧ f2.parent = (ciFile c v P.src).parent := by
        rw [U2.nlink, U2.parent]
        have hx : (ciFile c v1 (P.putDst ci1).src).nlink = (ciFile c v P.src).nlink ∧ (ciFile c v1 (P.putDst ci1).src).parent = (ciFile c v P.src).parent := by
          rcases pm.same with ⟨h1, h2, _⟩ | ⟨h1, h2⟩
          · have h3 := hfs1; rw [h1, hf1] at h3; injection h3 with h3
            rw [← h3, U1.nlink, U1.parent, getDst_none h2]; exact ⟨rfl, rfl⟩
          · have h3 := hfs1
            rw [U1.ed.ch.files ps (by rw [pm.di]; exact h1), hfs] at h3; injection h3 with h3
            rw [← h3]; exact ⟨rfl, rfl⟩
        exact hx
      have := U2.file.dirOf hc hp U2.ok
      exact ⟨_, f2, hfs, hf2, pm.src.file.mode, by rw [this]; exact U2.file, by rw [this]; exact U2.ok, hn2.1, hn2.2⟩
    · -- the destination directory
      rcases pm.same with ⟨h1, h2, _⟩ | ⟨h1, h2⟩
      · have hn2 : f2.nlink = (ciFile c v P.getDst).nlink ∧ f2.parent = (ciFile c v P.getDst).parent := by
          rw [U2.nlink, U2.parent]
          have h3 := hfs1; rw [h1, hf1] at h3; injection h3 with h3
          have h4 := U1.nlink; have h5 := U1.parent
          rw [h3] at h4 h5
          exact ⟨h4, h5⟩
        have := U2.file.dirOf hc hp U2.ok
        exact ⟨_, f2, hfd, by rw [← h1]; exact hf2, pm.dst.file.mode, by rw [this]; exact U2.file, by rw [this]; exact U2.ok, hn2.1, hn2.2⟩
      · have := U1.file.dirOf hc hp U1.ok
        exact ⟨_, f1, hfd, by rw [U2.ed.ch.files pd (by rw [pm1.si]; exact fun e => h1 e.symm)]; exact hf1, pm.dst.file.mode, by rw [this]; exact U1.file, by rw [this]; exact U1.ok, U1.nlink, U1.parent⟩
    · intro q m
      rw [ent2, ent1]
      by_cases e1 : q = ps ∧ m = srcIdx
      · rw [if_pos e1, if_pos e1]
        rw [if_neg]
        rintro ⟨h1, h2⟩
        exact hne (e1.1.symm.trans h1) (h2.symm.trans e1.2)
      · rw [if_neg e1, if_neg e1]

/-- Writing the new entry, removing the old one and recording the new parent. -/
theorem renameTail_spec (hc : c.Ok) (hp : c.PosixOk) {P : Parents} {ps pd : Nat} {ds dd : ADir} (hw : Wf c v) (pm : PM c v P ps pd ds dd)
    {i srcIdx dstIdx dstIno : Nat} {nm name : List Byte} (hn : CStr.Ok name) (hs : ds.slot srcIdx = some (i, nm)) (hok : NameOk c (nameOf c name))
    (hd : (dd.slot dstIdx = none ∧ dstIno = 0 ∧ dstIdx ≤ dd.n ∧ dstIdx < c.direntsMax ∧ ∀ k j, dd.slot k ≠ some (j, nameOf c name)) ∨
      (dd.slot dstIdx = some (dstIno, nameOf c name) ∧ c.renameAtomic = true))
    (hne : ps = pd → dstIdx ≠ srcIdx) {src : Cinode} (ms : Mnt c v src) (mdt : src.dirty = true) (mi : src.ino = i) (h1 : i ≠ ps) (h2 : i ≠ pd)
    {f : AFile} (hf : files c v i = some f) (dst : Option Cinode) :
    (∃ v', (do let p ← renameEntries c P src.ino srcIdx dstIdx dstIno name (nameOf c name).length
               let _ ← runCi src (setNode fun n => { n with pinode := p.getDst.ino })
               pure dst : VM (Option Cinode)) v = (.error .enospc, v') ∧ Ch c v v' (fun j => j = i ∨ j = ps ∨ j = pd) ∧ Kp c v v' (fun j => j = ps ∨ j = pd) ∧ files c v' = files c v ∧
      (v.useReserved = false → tot v ≤ tot v' ∨ c.reserved ≤ tot v') ∧ freeBlockCount c v < 9) ∨
    ∃ v', (do let p ← renameEntries c P src.ino srcIdx dstIdx dstIno name (nameOf c name).length
              let _ ← runCi src (setNode fun n => { n with pinode := p.getDst.ino })
              pure dst : VM (Option Cinode)) v = (.ok dst, v') ∧ Ch c v v' (fun j => j = i ∨ j = ps ∨ j = pd) ∧ Kp c v v' (fun j => j = ps ∨ j = pd) ∧
      (v.useReserved = false → tot v ≤ tot v' ∨ c.reserved ≤ tot v') ∧
      KeptDir c (files c v) (files c v') ps ∧ KeptDir c (files c v) (files c v') pd ∧ files c v' i = some { f with parent := pd } ∧
      ∀ q m, entOf c (files c v') q m = if q = pd ∧ m = dstIdx then some (i, nameOf c name) else if q = ps ∧ m = srcIdx then none else entOf c (files c v) q m := by
  rw [mi]
  rcases renameEntries_spec hc hp hw pm hn hs hok hd hne with ⟨v1, e, ch, hF, ht⟩ | ⟨P', v1, e, hi, ch, ht, k1, k2, hE⟩
  · left
    rw [run_bind, e]
    exact ⟨v1, rfl, ch.mono fun j hj => Or.inr hj, ch.kp, hF, ht⟩
  right
  rw [run_bind, e]; dsimp only
  rw [run_bind]
  have hni : ¬ (src.ino = ps ∨ src.ino = pd) := by rw [mi]; exact fun h => h.elim h1 h2
  have m1 := ch.mnt src hni ms
  obtain ⟨ci2, v2, e2, E2, m2, _, _, _, t1, t2, _, tt⟩ := setMeta_file hc ch.wf m1 mdt (fun n => { n with pinode := P'.getDst.ino }) rfl rfl rfl rfl
  rw [runCi_ok e2]; dsimp only
  have hcf : ciFile c v1 src = f := by
    have := ch.wf.file m1
    rw [ch.files _ hni, mi, hf] at this; injection this with this; exact this.symm
  have hnl : src.node.nlink = f.nlink := by rw [← hcf]; rfl
  have chE := E2.ch; rw [mi] at chE
  have hFi : files c v2 i = some { f with parent := pd } := by
    have := E2.file; rw [mi, hcf] at this
    rw [this]; simp only [hnl, hi]
  have kept : ∀ q, q ≠ i → KeptDir c (files c v) (files c v1) q → KeptDir c (files c v) (files c v2) q := by
    rintro q hq ⟨g, g', x1, x2, x3⟩
    exact ⟨g, g', x1, by rw [chE.files q hq]; exact x2, x3⟩
  refine ⟨v2, rfl, (ch.mono fun j hj => Or.inr hj).trans hc (chE.mono fun j hj => Or.inl hj),
    ch.kp.trans (E2.ch.kpAll (fun hh => by rw [E2.file] at hh; cases hh) (fun hh => by rw [ch.wf.file m1] at hh; cases hh) tt), ?_, kept ps (Ne.symm h1) k1, kept pd (Ne.symm h2) k2, hFi, ?_⟩
  · have : tot v2 = tot v1 := by unfold tot; rw [t1, t2]
    rw [this]; exact ht
  · intro q m
    rw [← hE]
    by_cases eq : q = i
    · have hf1 : files c v1 i = some f := by rw [ch.files i (fun h => h.elim h1 h2)]; exact hf
      rw [eq]
      unfold entOf; rw [hFi, hf1]; rfl
    · exact entOf_congr (chE.files q eq) m

/-- The namespace after a rename that replaces nothing. -/
theorem ns_kept {q : Nat} (h : KeptDir c F F' q) : (graphOf c F').node q = (graphOf c F).node q := by
  obtain ⟨f, f', h1, h2, h3, h4, h5, h6, h7⟩ := h
  rw [node_of h1, node_of h2, h3, h4.mode, h6, h7]

theorem KeptDir.kept {q : Nat} (h : KeptDir c F F' q) : Spec.DirKept F F' q := by
  obtain ⟨f, f', h1, h2, h3, h4, h5, h6, h7⟩ := h
  exact ⟨f, f', ⟨h1, h3⟩, ⟨h2, h4.mode⟩, h6, h7⟩

theorem bound_move (hc : c.Ok) (hp : c.PosixOk) {ps pd k k' i : Nat} {s s' : List Byte} (hk : entOf c F ps k = some (i, s))
    (hu : ∀ m j, entOf c F ps m = some (j, s) → m = k) (hu' : ∀ m j, entOf c F pd m = some (j, s') → m = k')
    (hk' : ∀ j t, entOf c F pd k' = some (j, t) → t = s')
    (hne : ¬ (ps = pd ∧ s = s'))
    (he : ∀ q m, entOf c F' q m = if q = pd ∧ m = k' then some (i, s') else if q = ps ∧ m = k then none else entOf c F q m) :
    Bound c F F' [(ps, s, none), (pd, s', some i)] where
  touched x hx j := by
    simp only [List.mem_cons, List.not_mem_nil, or_false] at hx
    rcases hx with rfl | rfl
    · simp only
      refine ⟨?_, fun h => by cases h⟩
      rintro ⟨m, hm⟩
      rw [he] at hm
      split at hm
      · next hh => injection hm with hm; injection hm with _ hm; exact absurd ⟨hh.1, hm.symm⟩ hne
      · split at hm
        · cases hm
        · next hh => exact absurd ⟨rfl, hu m j hm⟩ hh
    · simp only
      constructor
      · rintro ⟨m, hm⟩
        rw [he] at hm
        split at hm
        · injection hm with hm; injection hm with hm _; rw [hm]
        · next hh =>
          split at hm
          · cases hm
          · exact absurd ⟨rfl, hu' m j hm⟩ hh
      · intro h
        injection h with h; subst h
        exact ⟨k', by rw [he, if_pos ⟨rfl, rfl⟩]⟩
  other p t hx m j := by
    have h1 := hx (ps, s, none) (by simp)
    have h2 := hx (pd, s', some i) (by simp)
    simp only at h1 h2
    rw [he]
    by_cases e1 : p = pd ∧ m = k'
    · rw [if_pos e1]
      obtain ⟨rfl, rfl⟩ := e1
      constructor
      · intro h; injection h with h; injection h with _ h; exact absurd ⟨rfl, h⟩ h2
      · intro h; exact absurd ⟨rfl, (hk' _ _ h).symm⟩ h2
    · rw [if_neg e1]
      by_cases e2 : p = ps ∧ m = k
      · rw [if_pos e2]
        obtain ⟨rfl, rfl⟩ := e2
        constructor
        · intro h; cases h
        · intro h; rw [hk] at h; injection h with h; injection h with _ h; exact absurd ⟨rfl, h⟩ h1
      · rw [if_neg e2]

theorem Graph.Below.of_sub {G G' : Graph} {i x : Nat} (h : G'.Below i x) (hs : ∀ y nd, G'.node y = some nd → nd.dir = true → G.node y = some nd) : G.Below i x := by
  induction h with
  | refl => exact .refl
  | step a b _ ih => exact .step (hs _ _ a b) b ih

end RedFs
