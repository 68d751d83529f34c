import Verif.Lemmas.RefsCore
/-! References: link, unlink, rename, mount, format, and histories of calls. -/
set_option linter.unusedSimpArgs false
set_option linter.unusedVariables false
namespace RedFs.Refs
open RedFs M

variable {P Q R E : St → Prop} {c : Cfg} {A B : Caps} {k : Slot}

theorem coreLink_keep (hc : c.Ok) (h1 : c.readOnly = false) (h2 : c.fse = false) : Keep (Inv c none5) (coreLink c) := by
  have hr := room_PI hc h1 h2
  have hfull : Full c (capsPI c) .srcP := ⟨hr, rfl⟩
  have hdecl : Keep (Inv c (caps (some c.inodeBuffers) none none none none)) (declare .src) := declare_keep rfl
  unfold coreLink
  refine Keep.bind (Keep.status (InvT.blind _ _ _)) fun _ => Keep.bind (declare_keep rfl) fun _ => ?_
  refine withParent hc hdecl (declare_ok _) ?_
  apply Tri.keep
  refine Tri.bind (mountAny_src hc h1 h2) fun _ => Tri.andThen (Keep.tri ?_) (put_src _)
  have g1 := inodeBranch_keep hr hfull.has
  have g2 := dirCreate_keep hfull
  have g3 : Keep (Inv c (capsPI c)) (inodeBranch c .src) := inodeBranch_keep hr ⟨_, rfl⟩
  keep

theorem pure_bindM (m : M St α) : (do (pure () : M St Unit); m) = m := rfl

theorem coreUnlink_keep (hc : c.Ok) (h1 : c.readOnly = false) (h2 : c.fse = false) : Keep (Inv c none5) (coreUnlink c) := by
  have hr := room_PI hc h1 h2
  have hib := ib_ge c
  have hmin := min_posix h1 h2
  have hfull : Full c (capsPI c) .srcP := ⟨hr, rfl⟩
  have hfullP : Full c (caps (some c.inodeBuffers) none none none none) .srcP := ⟨room_P hc, rfl⟩
  unfold coreUnlink
  refine Keep.bind (Keep.status (InvT.blind _ _ _)) fun _ => Keep.bind (declare_keep rfl) fun _ => ?_
  have hw := withParent hc (d := pure ()) (Keep.pure _) (fun s => ⟨s, rfl⟩) (m := do
    dirLookup c .srcP
    inodeBranch c .srcP
    declare .src
    inodeMountAny c .src false
    andThen (do
      status
      dirDelete c .srcP
      putCoord c .srcP
      linkDec c .src)
      (inodePut c .src)) ?_
  · exact hw
  have g0 : Keep (Inv c (caps (some c.inodeBuffers) none none none none)) (declare .src) := declare_keep rfl
  refine Keep.bind (dirLookup_keep hfullP) fun _ => Keep.bind (inodeBranch_keep (room_P hc) hfullP.has) fun _ => Keep.bind g0 fun _ => ?_
  apply Tri.keep
  -- after the entry is deleted the parent keeps only its inode buffer
  have hp : Tri (Inv c (capsPI c)) (putCoord c .srcP) (Inv c (caps (some 1) none (some c.inodeBuffers) none none))
      (Inv c (caps (some c.inodeBuffers) none (some c.inodeBuffers) none none)) := by
    have := putCoord_tri (c := c) (A := capsPI c) (k := .srcP)
      (E := Inv c (caps (some c.inodeBuffers) none (some c.inodeBuffers) none none)) ⟨_, rfl⟩
    rw [caps_srcP] at this
    exact Tri.mono this (fun _ h => h) (capsUp fid fid (fup (by omega)) fid fid) (fun _ h => h)
  have hfs : Full c (caps (some 1) none (some c.inodeBuffers) none none) .src :=
    ⟨⟨hc.ptrs, hc.bufs, by rw [caps_total]; simp; omega⟩, rfl⟩
  have hput := inodePut_tri (c := c) (A := caps (some c.inodeBuffers) none (some c.inodeBuffers) none none) (k := .src)
    (E := Inv c (caps (some c.inodeBuffers) none none none none)) ⟨_, rfl⟩
  rw [caps_src] at hput
  refine Tri.bind (mountAny_src hc h1 h2) fun _ =>
    Tri.andThen (Q := Inv c (caps (some c.inodeBuffers) none (some c.inodeBuffers) none none)) ?_
      (Tri.mono hput (fun _ h => h) (capsUp fid fid fz fid fid) (fun _ h => h))
  have hup : ∀ s, Inv c (capsPI c) s → Inv c (caps (some c.inodeBuffers) none (some c.inodeBuffers) none none) s :=
    capsUp fid fid (fup (by omega)) fid fid
  refine Tri.bind (Tri.mono (Keep.tri (Keep.status (InvT.blind c (capsPI c) 0))) (fun _ h => h) (fun _ h => h) hup) fun _ => ?_
  refine Tri.bind (Tri.mono (Keep.tri (dirDelete_keep hfull)) (fun _ h => h) (fun _ h => h) hup) fun _ => ?_
  refine Tri.bind hp fun _ => ?_
  have hup2 : ∀ s, Inv c (caps (some 1) none (some c.inodeBuffers) none none) s →
      Inv c (caps (some c.inodeBuffers) none (some c.inodeBuffers) none none) s := capsUp (fup (by omega)) fid fid fid fid
  exact Tri.mono (Keep.tri (linkDec_keep hfs)) (fun _ h => h) hup2 hup2

/-! Rename. -/

/-- The destination's parent: the source's parent, or another inode with its own buffers. -/
def DstP (c : Cfg) (kd : Slot) (b : Option Nat) : Prop := (kd = .srcP ∧ b = none) ∨ (kd = .dstP ∧ b = some c.inodeBuffers)

theorem room_rename (hc : c.Ok) (h1 : c.readOnly = false) (h2 : c.fse = false) (h3 : c.rename = true) {kd : Slot} {b : Option Nat}
    (hb : DstP c kd b) {x y z : Nat} (h : x + y + z ≤ 2 + c.dstCap) :
    Room c (caps (some c.inodeBuffers) b (some x) (some y) (some z)) := by
  refine ⟨hc.ptrs, hc.bufs, ?_⟩
  rw [caps_total, min_rename h1 h2 h3]
  rcases hb with ⟨rfl, rfl⟩ | ⟨rfl, rfl⟩ <;> simp <;> omega
theorem room_next {a b d e : Option Nat} {z : Option Nat} (h : Room c (caps a b d e z)) : Room c (caps a b d e none) := by
  refine ⟨h.ptrs, h.min, ?_⟩
  have := h.room
  rw [caps_total] at this ⊢
  simp at this ⊢; omega

theorem full_kd {kd : Slot} {b d e f : Option Nat} (hb : DstP c kd b) (hr : Room c (caps (some c.inodeBuffers) b d e f)) :
    Full c (caps (some c.inodeBuffers) b d e f) kd := by
  rcases hb with ⟨rfl, rfl⟩ | ⟨rfl, rfl⟩ <;> exact ⟨hr, rfl⟩

/-- Before `RedDirEntryRename`, after it. -/
abbrev capsR0 (c : Cfg) (b : Option Nat) : Caps := caps (some c.inodeBuffers) b (some 0) (some 0) none
abbrev capsR1 (c : Cfg) (b : Option Nat) : Caps := caps (some c.inodeBuffers) b (some 1) (some c.dstCap) none

theorem dirRename_tri (hc : c.Ok) (h1 : c.readOnly = false) (h2 : c.fse = false) (h3 : c.rename = true) {kd : Slot} {b : Option Nat}
    (hb : DstP c kd b) : Tri (Inv c (capsR0 c b)) (dirRename c kd) (Inv c (capsR1 c b)) (Inv c (capsR1 c b)) := by
  have r0 : Room c (capsR0 c b) := room_next (room_rename hc h1 h2 h3 hb (x := 0) (y := 0) (z := 0) (by omega))
  have r1 : Room c (capsR1 c b) := room_next (room_rename hc h1 h2 h3 hb (x := 1) (y := c.dstCap) (z := 0) (by omega))
  have r1n : Room c ((capsR1 c b).set .next (some 1)) := by
    rw [caps_next]; exact room_rename hc h1 h2 h3 hb (by omega)
  have fs0 : Full c (capsR0 c b) .srcP := ⟨r0, rfl⟩
  have fd0 := full_kd hb r0
  have fs1 : Full c (capsR1 c b) .srcP := ⟨r1, rfl⟩
  have fd1 := full_kd hb r1
  have up : ∀ s, Inv c (capsR0 c b) s → Inv c (capsR1 c b) s := capsUp fid fid (fup (by omega)) (fup (by omega)) fid
  have k0 : ∀ {m : M St Unit}, Keep (Inv c (capsR0 c b)) m → Tri (Inv c (capsR0 c b)) m (Inv c (capsR0 c b)) (Inv c (capsR1 c b)) :=
    fun h => Tri.mono (Keep.tri h) (fun _ h => h) (fun _ h => h) up
  have bl0 := InvT.blind c (capsR0 c b) 0
  unfold dirRename
  refine Tri.bind (k0 (mounted_keep (t := 0) fs0.has)) fun _ => Tri.bind (k0 (mounted_keep (t := 0) fd0.has)) fun _ =>
    Tri.bind (k0 (Keep.status bl0)) fun _ => Tri.bind (k0 (dirLookup_keep fs0)) fun _ => ?_
  have ha : Tri (Inv c (capsR0 c b)) (M.attempt (dirLookup c kd)) (Inv c (capsR0 c b)) (Inv c (capsR1 c b)) :=
    Tri.mono (Keep.tri (Keep.attempt (dirLookup_keep fd0))) (fun _ h => h) (fun _ h => h) up
  refine Tri.bind ha fun r => ?_
  refine Tri.bind (Q := Inv c (capsR0 c b)) (k0 ?_) fun _ => ?_
  · cases r with
    | ok _ => exact Keep.whenB fun _ => Keep.fail _
    | error e => exact Keep.ite (fun _ => Keep.status bl0) (fun _ => Keep.fail _)
  refine Tri.bind flipT fun same => ?_
  split
  · exact fun s hs => up s hs
  have m1 : Tri (Inv c (capsR0 c b)) (inodeMountAny c .src true) (Inv c (caps (some c.inodeBuffers) b (some 1) (some 0) none))
      (Inv c (capsR1 c b)) := by
    have := inodeMountAny_tri (c := c) (A := capsR0 c b) (k := .src)
      (by rw [caps_src]; exact room_next (room_rename hc h1 h2 h3 hb (x := 1) (y := 0) (z := 0) (by omega))) (Or.inr rfl) true
    rw [caps_src] at this
    exact Tri.mono this (fun _ h => h) (fun _ h => h) up
  refine Tri.bind m1 fun _ => ?_
  have bl1 := InvT.blind c (capsR1 c b) 0
  have up2 : ∀ s, Inv c (caps (some c.inodeBuffers) b (some 1) (some 0) none) s → Inv c (capsR1 c b) s :=
    capsUp fid fid fid (fup (by omega)) fid
  have m2 : Tri (Inv c (caps (some c.inodeBuffers) b (some 1) (some 0) none)) (whenB c.renameAtomic (maybe (do
      inodeMountAny c .dst true
      status))) (Inv c (capsR1 c b)) (Inv c (capsR1 c b)) := by
    cases ht : c.renameAtomic
    · exact fun s hs => up2 s hs
    · rw [whenB_true]
      have hcap : c.dstCap = 1 := by unfold Cfg.dstCap; rw [ht]; rfl
      have := inodeMountAny_tri (c := c) (A := caps (some c.inodeBuffers) b (some 1) (some 0) none) (k := .dst)
        (by rw [caps_dst]; exact room_next (room_rename hc h1 h2 h3 hb (x := 1) (y := 1) (z := 0) (by omega))) (Or.inr rfl) true
      rw [caps_dst] at this
      refine Tri.bind flipT fun x => ?_
      split
      · refine Tri.bind (Q := Inv c (capsR1 c b)) (Tri.mono this (fun _ h => h) (fun s hs => ?_) up2) fun _ => Keep.tri (Keep.status bl1)
        unfold capsR1; rw [hcap]; exact hs
      · exact fun s hs => up2 s hs
  refine Tri.bind m2 fun _ => Keep.tri ?_
  have g1 := cyclicCheck_keep r1n rfl fd1.has
  have g2 := dirWrite_keep fd1
  have g3 := dirDelete_keep fs1
  have g4 := dirDelete_keep fd1
  keep

theorem coreRename_keep (hc : c.Ok) (h1 : c.readOnly = false) (h2 : c.fse = false) (h3 : c.rename = true) (same : Bool) :
    Keep (Inv c none5) (coreRename c true same) := by
  have hib := ib_ge c
  have hmr := min_rename h1 h2 h3
  have hmin := min_any c
  unfold coreRename
  refine Keep.bind (Keep.status (InvT.blind _ _ _)) fun _ => Keep.bind (declare_keep rfl) fun _ => ?_
  apply Tri.keep
  have hputP := inodePut_tri (c := c) (A := caps (some c.inodeBuffers) none none none none) (k := .srcP) (E := Inv c none5) ⟨_, rfl⟩
  rw [caps_srcP] at hputP
  refine Tri.andThen (Q := Inv c (caps (some c.inodeBuffers) none none none none)) ?_
    (Tri.mono hputP (fun _ h => h) (capsUp fz fid fid fid fid) (fun _ h => h))
  -- mount the source parent
  have hm := inodeMount_tri (c := c) (A := none5) (k := .srcP) (by rw [caps_srcP]; exact ⟨hc.ptrs, hc.bufs, by simp [caps_total]; omega⟩)
    (Or.inl rfl) true
  rw [caps_srcP, caps_srcP] at hm
  refine Tri.bind (Q := Inv c (caps (some c.inodeBuffers) none none none none))
    (Tri.mono hm (fun _ h => h) (capsUp (fup (by omega)) fid fid fid fid) (capsUp (fup (by omega)) fid fid fid fid)) fun _ => ?_
  have hd : Keep (Inv c (caps (some c.inodeBuffers) none none none none)) (declare .dstP) := declare_keep rfl
  refine Tri.bind (Keep.tri hd) fun _ => ?_
  -- mount the destination parent
  have hdst : ∃ b, DstP c (dstSlot same) b ∧ Tri (Inv c (caps (some c.inodeBuffers) none none none none))
      (whenB (!same) (inodeMountAny c .dstP true)) (Inv c (caps (some c.inodeBuffers) b none none none))
      (Inv c (caps (some c.inodeBuffers) none none none none)) := by
    cases same
    · refine ⟨_, Or.inr ⟨rfl, rfl⟩, ?_⟩
      have := inodeMountAny_tri (c := c) (A := caps (some c.inodeBuffers) none none none none) (k := .dstP)
        (by rw [caps_dstP]; exact ⟨hc.ptrs, hc.bufs, by simp [caps_total]; omega⟩) (Or.inl rfl) true
      rw [caps_dstP] at this
      exact Tri.mono this (fun _ h => h) (capsUp fid (fup (by omega)) fid fid fid) (fun _ h => h)
    · exact ⟨_, Or.inl ⟨rfl, rfl⟩, fun s hs => hs⟩
  obtain ⟨b, hb, hdst⟩ := hdst
  refine Tri.bind hdst fun _ => ?_
  have z1 := zero_tri (c := c) (A := caps (some c.inodeBuffers) b none none none) (k := .src)
    (E := Inv c (caps (some c.inodeBuffers) none none none none)) (Or.inl rfl)
  rw [caps_src] at z1
  have z2 := zero_tri (c := c) (A := caps (some c.inodeBuffers) b (some 0) none none) (k := .dst)
    (E := Inv c (caps (some c.inodeBuffers) none none none none)) (Or.inl rfl)
  rw [caps_dst] at z2
  refine Tri.bind z1 fun _ => Tri.bind z2 fun _ => ?_
  -- the rename itself, and the link count of the inode that was replaced
  generalize hq : (if c.renameAtomic then c.inodeBuffers else 0) = qd
  have hqd : c.dstCap ≤ qd := by
    rw [← hq]; unfold Cfg.dstCap; split
    · omega
    · omega
  have upq : ∀ s, Inv c (capsR1 c b) s → Inv c (caps (some c.inodeBuffers) b (some 1) (some qd) none) s :=
    capsUp fid fid fid (fup hqd) fid
  refine Tri.andThen (Q := Inv c (caps (some c.inodeBuffers) b (some 1) (some qd) none)) ?_ ?_
  · refine Tri.bind (Q := Inv c (capsR1 c b)) (Tri.mono (dirRename_tri hc h1 h2 h3 hb) (fun _ h => h) (fun _ h => h) upq) fun _ => ?_
    cases ht : c.renameAtomic
    · exact fun s hs => upq s hs
    · rw [whenB_true]
      have hcap : c.dstCap = 1 := by unfold Cfg.dstCap; rw [ht]; rfl
      have hqe : qd = c.inodeBuffers := by rw [← hq, ht]; rfl
      subst hqe
      refine Tri.bind flipT fun x => ?_
      split
      case isFalse => exact fun s hs => upq s hs
      have p1 := putCoord_tri (c := c) (A := capsR1 c b) (k := .srcP)
        (E := Inv c (caps (some c.inodeBuffers) b (some 1) (some c.inodeBuffers) none)) ⟨_, rfl⟩
      rw [caps_srcP] at p1
      refine Tri.bind p1 fun _ => ?_
      obtain ⟨b', hb', p2⟩ : ∃ b' : Option Nat, (b' = none ∧ b = none ∨ b' = some 1 ∧ b = some c.inodeBuffers) ∧
          Tri (Inv c (caps (some 1) b (some 1) (some c.dstCap) none)) (putCoord c (dstSlot same))
            (Inv c (caps (some 1) b' (some 1) (some c.dstCap) none))
            (Inv c (caps (some c.inodeBuffers) b (some 1) (some c.inodeBuffers) none)) := by
        rcases hb with ⟨e, rfl⟩ | ⟨e, rfl⟩
        · rw [e]
          refine ⟨none, Or.inl ⟨rfl, rfl⟩, ?_⟩
          have := putCoord_tri (c := c) (A := caps (some 1) none (some 1) (some c.dstCap) none) (k := .srcP)
            (E := Inv c (caps (some c.inodeBuffers) none (some 1) (some c.inodeBuffers) none)) ⟨_, rfl⟩
          rwa [caps_srcP] at this
        · rw [e]
          refine ⟨some 1, Or.inr ⟨rfl, rfl⟩, ?_⟩
          have := putCoord_tri (c := c) (A := caps (some 1) (some c.inodeBuffers) (some 1) (some c.dstCap) none) (k := .dstP)
            (E := Inv c (caps (some c.inodeBuffers) (some c.inodeBuffers) (some 1) (some c.inodeBuffers) none)) ⟨_, rfl⟩
          rwa [caps_dstP] at this
      refine Tri.bind p2 fun _ => ?_
      have hfull : Full c (caps (some 1) b' (some 1) (some c.inodeBuffers) none) .dst := by
        refine ⟨⟨hc.ptrs, hc.bufs, ?_⟩, rfl⟩
        rw [caps_total]
        rcases hb' with ⟨rfl, rfl⟩ | ⟨rfl, rfl⟩ <;> simp <;> omega
      have upf : ∀ s, Inv c (caps (some 1) b' (some 1) (some c.inodeBuffers) none) s →
          Inv c (caps (some c.inodeBuffers) b (some 1) (some c.inodeBuffers) none) s := by
        rcases hb' with ⟨rfl, rfl⟩ | ⟨rfl, rfl⟩
        · exact capsUp (fup (by omega)) fid fid fid fid
        · exact capsUp (fup (by omega)) (fup (by omega)) fid fid fid
      exact Tri.mono (Keep.tri (linkDec_keep hfull)) (capsUp fid fid fid (fup (by omega)) fid) upf upf
  -- giving everything back
  · have f1 : Tri (Inv c (caps (some c.inodeBuffers) b (some 1) (some qd) none)) (whenB c.renameAtomic (inodePut c .dst))
        (Inv c (caps (some c.inodeBuffers) b (some 1) none none)) (Inv c (caps (some c.inodeBuffers) none none none none)) := by
      cases ht : c.renameAtomic
      · have : qd = 0 := by rw [← hq, ht]; rfl
        subst this
        exact fun s hs => capsUp fid fid fid fz fid s hs
      · rw [whenB_true]
        have := inodePut_tri (c := c) (A := caps (some c.inodeBuffers) b (some 1) (some qd) none) (k := .dst)
          (E := Inv c (caps (some c.inodeBuffers) none none none none)) ⟨_, rfl⟩
        rw [caps_dst] at this
        exact Tri.mono this (fun _ h => h) (capsUp fid fid fid fz fid) (fun _ h => h)
    have f2 := inodePut_tri (c := c) (A := caps (some c.inodeBuffers) b (some 1) none none) (k := .src)
      (E := Inv c (caps (some c.inodeBuffers) none none none none)) ⟨_, rfl⟩
    rw [caps_src] at f2
    refine Tri.bind f1 fun _ => Tri.bind f2 fun _ => ?_
    rcases hb with ⟨e, rfl⟩ | ⟨e, rfl⟩
    · rw [e]
      have := inodePut_tri (c := c) (A := caps (some c.inodeBuffers) none (some 0) none none) (k := .srcP)
        (E := Inv c (caps (some c.inodeBuffers) none none none none)) ⟨_, rfl⟩
      rw [caps_srcP] at this
      exact Tri.mono this (fun _ h => h) (capsUp (fup (by omega)) fid fz fid fid) (fun _ h => h)
    · rw [e]
      have := inodePut_tri (c := c) (A := caps (some c.inodeBuffers) (some c.inodeBuffers) (some 0) none none) (k := .dstP)
        (E := Inv c (caps (some c.inodeBuffers) none none none none)) ⟨_, rfl⟩
      rw [caps_dstP] at this
      exact Tri.mono this (fun _ h => h) (capsUp fid fz fz fid fid) (fun _ h => h)

/-! Mount and format. -/

theorem tmp_only (hc : c.Ok) {m : M St Unit} (hm : Keep (InvT c none5 1) m) :
    Keep (Inv c none5) (do tmpGet c; andThen m tmpPut) := by
  have h1 := min_any c
  have h2 := ib_ge c
  apply Tri.keep
  refine Tri.bind (tmpGet_tri (A := none5) (by simp [caps_total]; omega) hc.bufs) fun _ => ?_
  exact Tri.andThen (Keep.tri hm) tmpPut_tri

theorem tmp_status (hc : c.Ok) : Keep (Inv c none5) (do tmpGet c; andThen status tmpPut) :=
  tmp_only hc (Keep.status (InvT.blind _ _ _))

theorem bind3 (a b : M St Unit) (m : M St Unit) : (do a; b; m) = (do (do a; b); m) := by
  funext s
  simp only [M.run_bind]
  rcases a s with ⟨r | x, s'⟩ <;> rfl

theorem volMount_keep (hc : c.Ok) : Keep (Inv c none5) (volMount c) := by
  have hb := InvT.blind c none5 0
  unfold volMount
  refine Keep.bind (Keep.status hb) fun _ => ?_
  rw [bind3]
  exact Keep.bind (tmp_status hc) fun _ => Keep.status hb

theorem formatInode_keep (hc : c.Ok) : Keep (Inv c none5) (formatInode c) := by
  have h1 := min_any c
  have h2 := ib_ge c
  unfold formatInode
  refine Keep.bind decl_src fun _ => ?_
  apply Tri.keep
  have hcr := inodeCreate_tri (c := c) (A := none5) (k := .src)
    (by rw [caps_src]; exact ⟨hc.ptrs, hc.bufs, by simp [caps_total]; omega⟩) rfl
  rw [caps_src] at hcr
  have hput := inodePut_tri (c := c) (A := caps none none (some 1) none none) (k := .src) (E := Inv c none5) ⟨_, rfl⟩
  rw [caps_src] at hput
  exact Tri.bind hcr fun _ => Tri.mono hput (fun _ h => h) (capsUp fid fid fz fid fid) (fun _ h => h)

theorem volFormat_keep (hc : c.Ok) : Keep (Inv c none5) (volFormat c) := by
  have hb := InvT.blind c none5 0
  have hst := Keep.status hb
  have h1 := min_any c
  have h2 := ib_ge c
  have hf := formatInode_keep hc
  have ht := tmp_status hc
  have himap : Keep (Inv c none5) (do tmpGet c; tmpPut; pure false) := by
    apply Tri.keep
    exact Tri.bind (tmpGet_tri (A := none5) (by simp [caps_total]; omega) hc.bufs) fun _ => Tri.bind tmpPut_tri fun _ s hs => hs
  unfold volFormat
  refine Keep.bind hst fun _ => ?_
  rw [bind3]
  refine Keep.bind ht fun _ => Keep.bind hst fun _ => Keep.bind ?_ fun ext => ?_
  · unfold external; keep
  refine Keep.bind (Keep.whenB fun _ => Keep.loop hb himap) fun _ => Keep.bind hst fun _ => Keep.bind ?_ fun _ => Keep.bind hst fun _ => ?_
  · keep
  rw [bind3]
  exact Keep.bind ht fun _ => hst

/-! All calls. -/

/-- Rename with a source parent that is a valid inode number. -/
def Op.valid : Op → Bool
  | .rename v _ => v
  | _ => true

theorem run_keep (hc : c.Ok) (o : Op) (he : o.exists_ c = true) (hv : o.valid = true) : Keep (Inv c none5) (o.run c) := by
  have hb := InvT.blind c none5 0
  cases o with
  | mount => exact volMount_keep hc
  | format => exact volFormat_keep hc
  | transact => exact Keep.status hb
  | create =>
    simp [Op.exists_] at he
    exact Keep.withRetry hb (coreCreate_keep hc he.1 he.2)
  | link =>
    simp [Op.exists_] at he
    exact Keep.withRetry hb (coreLink_keep hc he.1 he.2)
  | unlink =>
    simp [Op.exists_] at he
    exact Keep.withRetry hb (coreUnlink_keep hc he.1 he.2)
  | lookup => exact coreLookup_keep hc
  | rename v same =>
    simp [Op.exists_] at he
    cases v
    · cases hv
    · exact Keep.withRetry hb (coreRename_keep hc he.1.1 he.1.2 he.2 same)
  | stat => exact coreStat_keep hc
  | read => exact coreFileRead_keep hc
  | write => exact Keep.withRetry hb (coreFileWrite_keep hc)
  | truncate => exact Keep.withRetry hb (coreFileTruncate_keep hc)
  | readdir => exact coreDirRead_keep hc

theorem runOps_keep (hc : c.Ok) : ∀ os : List Op, (∀ o ∈ os, o.exists_ c = true ∧ o.valid = true) → Keep (Inv c none5) (runOps c os)
  | [], _ => Keep.pure _
  | o :: os, h => Keep.bind (Keep.attempt (run_keep hc o (h o (List.mem_cons_self ..)).1 (h o (List.mem_cons_self ..)).2)) fun _ =>
      runOps_keep hc os fun o' ho => h o' (List.mem_cons_of_mem _ ho)

theorem idle_inv (c : Cfg) (o : List Nat) : Inv c none5 (St.idle o) :=
  ⟨rfl, rfl, rfl, Nat.zero_le _, fun j => by cases j <;> exact (rfl : cnt none = 0)⟩

end RedFs.Refs
