import Verif.Lemmas.Refine
set_option linter.unusedSimpArgs false
set_option linter.unusedVariables false
/-!
The blocks held in reserve: deleting and shrinking never fail for lack of space while no freed block
waits for a transaction.
-/
namespace RedFs
open M Bitmap Vol

variable {c : Conf} {P : (Nat → Option AFile) → Prop} {v v' : Vol}

/-- Enough space for deleting or shrinking: the reserve is there, or nothing is in use. -/
def Room (c : Conf) (v : Vol) : Prop := c.reserved ≤ v.work.freeBlocks ∨ ∀ i p, PosOk c p → tree c v i p = 0

theorem used_free (c : Conf) (u : Vol) : countIn (fun b => !curBit c u b) c.firstAlloc c.blockCount + countIn (curBit c u) c.firstAlloc c.blockCount = c.allocable := by
  rw [countIn_add (by intro x _ _; cases curBit c u x <;> simp)]
  have : ∀ x, (!curBit c u x || curBit c u x) = true := by intro x; cases curBit c u x <;> rfl
  simp only [this]
  unfold countIn Conf.allocable
  rw [List.countP_true, List.length_range']

theorem Inv.room (hc : c.Ok) (h : Inv c P v) (ha : v.almostFree = 0) : Room c v := by
  by_cases hr : c.reserved ≤ v.work.freeBlocks
  · exact Or.inl hr
  · right
    intro i p hp
    by_contra h0
    have hrs := h.rsv
    unfold tot at hrs; rw [ha] at hrs
    have hall : c.allocable ≤ v.work.freeBlocks := by
      rcases Nat.le_total c.reserved c.allocable with hle | hle
      · rw [Nat.min_eq_left hle] at hrs; omega
      · rw [Nat.min_eq_right hle] at hrs; omega
    obtain ⟨r1, r2, r3⟩ := h.wf.fs.range i p hp h0
    have hs := space_sum h.wf.vol.space
    have hle := used_free c v
    have hp : 0 < countIn (curBit c v) c.firstAlloc c.blockCount := countIn_pos.2 ⟨_, r1, r2, r3⟩
    omega

theorem Room.congr (h : Wf c v) (h' : Wf c v') (hf : v'.work.freeBlocks = v.work.freeBlocks) (ha : v'.almostFree = v.almostFree) (hr : Room c v) : Room c v' := by
  rcases hr with hr | hr
  · exact Or.inl (by rw [hf]; exact hr)
  · right
    intro i p hp
    by_contra h0
    obtain ⟨r1, r2, r3⟩ := h'.fs.range i p hp h0
    have hs1 := space_sum h'.vol.space
    have hs0 := space_sum h.vol.space
    have hz : countIn (curBit c v) c.firstAlloc c.blockCount = 0 := by
      by_contra hne
      obtain ⟨x, x1, x2, x3⟩ := countIn_pos.1 (Nat.pos_of_ne_zero hne)
      obtain ⟨i', p', hp', e'⟩ := h.fs.full x x1 x2 x3
      have hh := hr i' p' hp'
      have : x = 0 := e'.symm.trans hh
      have := Conf.Ok.first_ge c
      have := Conf.Ok.table_ge c
      omega
    have hp1 : 0 < countIn (curBit c v') c.firstAlloc c.blockCount := countIn_pos.2 ⟨_, r1, r2, r3⟩
    have a1 := used_free c v; have a2 := used_free c v'
    omega

theorem brCost_le (hc : c.Ok) (s : DS) (V : Pos → Nat) {b : Nat} (hb : b < c.dataBlocks) :
    brCost c s V 2 (posOf c b) ≤ if c.dindirPtrs > 0 then 3 else if c.indirect > 0 then 2 else 1 := by
  have hone : ∀ o, costOf c s V o ≤ 1 := by
    intro o; cases o with
    | none => exact Nat.zero_le _
    | some p => show costAt c s V p ≤ 1; unfold costAt; split <;> omega
  obtain ⟨hok, _, _⟩ := posOf_ok hc hb
  have hx := hone (ancX 2 (posOf c b))
  have hI := hone (ancI 2 (posOf c b))
  have hD := hone (anc (posOf c b) >>= anc)
  unfold brCost
  generalize posOf c b = q at hok hx hI hD
  rcases q with e | ⟨e | ⟨p, d⟩, k⟩
  · have h1 : costOf c s V (anc (.ent e) >>= anc) = 0 := rfl
    have h2 : costOf c s V (ancI 2 (.ent e)) = 0 := rfl
    rw [h1, h2]; (repeat' split) <;> omega
  · have h1 : costOf c s V (anc (.sub (.ent e) k) >>= anc) = 0 := rfl
    rw [h1]
    obtain ⟨he, hl, _⟩ := hok
    have hl : 0 < c.height e := hl
    have he : e < c.inodeEntries := he
    unfold Conf.height at hl
    unfold Conf.dindirPtrs
    (repeat' split) <;> first | omega | (exfalso; (repeat' split at hl) <;> omega)
  · obtain ⟨⟨hp, hl1, _⟩, hl, _⟩ := hok
    have hl : 0 < p.lvl c - 1 := hl
    have hd : c.dindirPtrs > 0 := by
      rcases p with e | ⟨p, x⟩
      · have hl : 0 < c.height e - 1 := hl
        have hp : e < c.inodeEntries := hp
        unfold Conf.height at hl
        unfold Conf.dindirPtrs
        by_contra hcon
        (repeat' split at hl) <;> omega
      · exfalso
        have hl : 0 < p.lvl c - 1 - 1 := hl
        have : ∀ p : Pos, p.lvl c ≤ 2 := by
          intro p
          induction p with
          | ent e => show c.height e ≤ 2; unfold Conf.height; (repeat' split) <;> omega
          | sub p k ih => show p.lvl c - 1 ≤ 2; omega
        have := this p; omega
    rw [if_pos hd]; omega

theorem setReserved (hidle : v.useReserved = false) (b : Bool) : ∃ b', setUseReserved c b v = (.ok (), { v with useReserved := b' }) ∧
    (b = true → 0 < c.reserved → b' = true) ∧ (b = false → b' = false) := by
  unfold setUseReserved
  split
  · exact ⟨b, rfl, fun h _ => h, fun h => h⟩
  · next h => exact ⟨false, by rw [← hidle]; rfl, fun _ h' => absurd h' h, fun _ => rfl⟩

theorem truncate_room (hc : c.Ok) (h : Inv c P v) (hro : v.readOnly = false) (hr : Room c v) (hcan : c.canTruncate = true ∨ (c.posix && c.canDelete) = true)
    {ino size : Nat} {f : AFile} (hf : Spec.IsReg (files c v) ino f) (hs : size ≤ f.size) :
    ∃ v', coreFileTruncateSub c ino size v = (.ok (), v') := by
  unfold coreFileTruncateSub
  rw [rwOp_run hro]
  simp only [run_bind]
  rcases mountFile hc h.wf ino true with ⟨e, h1, h2⟩ | ⟨f', ci, v1, hr', h2, fr, hd, _⟩
  · exfalso
    rcases h1 with ⟨_, h1⟩ | ⟨_, g, h1, h2⟩
    · rw [hf.1] at h1; cases h1
    · rw [hf.1] at h1; injection h1 with h1; subst h1; have := hf.2; rw [h2] at this; cases this
  have hff : f' = f := by have := hr'.1; rw [hf.1] at this; injection this with this; exact this.symm
  subst hff
  rw [h2]; simp only
  have hd := hd rfl
  obtain ⟨b, hb, hb1, _⟩ := setReserved (c := c) (v := v1) (by rw [fr.ch.useReserved]; exact h.idle) (decide (size < ci.node.size))
  rw [hb]; simp only
  have hset : ∀ v' : Vol, ∃ v'', setUseReserved c false v' = (.ok (), v'') := by
    intro v'; unfold setUseReserved; split
    · exact ⟨_, rfl⟩
    · exact ⟨_, rfl⟩
  rcases trunc_file hc (fr.ch.wf.useRes b) (fr.mnt.useRes b) hd size with ⟨g1, g2⟩ | ⟨g0, ci', v', g1, _, _, _, _, hfail, _⟩ | ⟨g0, ci', v', g1, _, _, _⟩
  · exfalso
    obtain ⟨nd, hn⟩ : ∃ nd, inodeAt c v.blk (curBit c v) ino = some nd := by
      have := hf.1; unfold files at this; rw [fileOf_eq] at this
      cases hn : inodeAt c v.blk (curBit c v) ino with
      | none => rw [hn] at this; cases this
      | some nd => exact ⟨nd, rfl⟩
    have := (h.wf.fs.node ino nd hn).2.1
    have hsz : f'.size = nd.size := by
      have h1 := hf.1; unfold files at h1; rw [fileOf_eq, hn] at h1; injection h1 with h1; rw [← h1]
    omega
  · exfalso
    obtain ⟨k1, k2, k3⟩ := hfail (by rw [fr.size]; exact hs)
    obtain ⟨t1, q, t2, t3, t4, t5, t6⟩ := k3
    have hnode : Bnd c (tree c { v1 with useReserved := b } ci.ino) ci.node.size := ((fr.ch.wf.useRes b).fok hc (fr.mnt.useRes b)).bnd
    by_cases hlt : size < ci.node.size
    · have hres : 0 < c.shrinkNeed := by omega
      have hge : c.shrinkNeed ≤ c.reserved := by
        unfold Conf.shrinkNeed Conf.reserved
        cases hpd : (c.posix && c.canDelete)
        · rw [hpd] at hcan
          rw [hcan.resolve_right (by simp)]
          simp only [Bool.false_eq_true, if_false, if_true]; exact Nat.le_refl _
        · simp only [if_true]
          (repeat' split) <;> omega
      have hbt := hb1 (decide_eq_true hlt) (by omega)
      subst hbt
      rcases hr with hr | hr
      · have : freeBlockCount c ({ v1 with useReserved := true } : Vol) = v.work.freeBlocks := fr.free
        omega
      · refine t3 ?_
        rcases Room.congr h.wf fr.ch.wf fr.free fr.almost (Or.inr hr) with hr1 | hr1
        · exfalso
          have : freeBlockCount c ({ v1 with useReserved := true } : Vol) = v1.work.freeBlocks := rfl
          omega
        · exact hr1 ci.ino q t2
    · -- the size does not change
      have hsz : ci.node.size = size := by rw [fr.size] at hlt ⊢; omega
      obtain ⟨nb, hnb⟩ := ((fr.ch.wf.useRes b).fok hc (fr.mnt.useRes b)).inv.nb_isSome
      have hnb : ci.nodeBuf = some nb := hnb
      have : ∃ s', dataTruncate c size ⟨ci, { v1 with useReserved := b }⟩ = (.ok (), s') := by
        unfold dataTruncate
        simp only [run_bind, run_get]
        rw [if_neg (by rw [hnb]; simp), if_neg (by omega)]
        simp only [run_bind]
        rw [show onlyIf (ci.node.size < size) (expandPrepare c) () = (pure () : DM Unit) from by unfold onlyIf; rw [if_neg (by omega)],
          show onlyIf (size < ci.node.size) (shrink c size) () = (pure () : DM Unit) from by unfold onlyIf; rw [if_neg (by omega)]]
        exact ⟨_, rfl⟩
      obtain ⟨s', e'⟩ := this
      rw [g1] at e'; cases (Prod.mk.inj e').1
  · rw [onCi_eq g1]; simp only
    obtain ⟨v'', e⟩ := hset v'
    rw [e]
    exact ⟨v'', rfl⟩

theorem unlink_room (hc : c.Ok) (hp : c.PosixOk) (h : Inv c (NsOk c) v) (hro : v.readOnly = false) (hr : Room c v) (hcan : c.canDelete = true)
    (p : Nat) {name : List Byte} (hn : Str.CStr.Ok name) : (coreUnlinkSub c p name v).1 ≠ .error .enospc := by
  unfold coreUnlinkSub
  rw [rwOp_run hro, run_bind]
  rcases mountDir hc h.wf p false with ⟨e, h1, h2⟩ | ⟨f, pi, v1, hd, h2, fr, _, hnb⟩
  · rw [h2]; intro hh; injection hh with hh; subst hh
    rcases h1 with ⟨h1, _⟩ | ⟨h1, _⟩ <;> cases h1
  obtain ⟨rfl, _⟩ := hnb rfl
  rw [h2]; dsimp only
  rw [run_bind]
  have md := h.now.mdir hd fr
  have hpi := fr.ino
  have hent : ∀ k, entOf c (files c v1) p k = (dirOf c f).slot k := h.now.ent hc hp hd
  rcases dirLookup_spec hc hp h.wf md hn with ⟨g, e⟩ | ⟨g, e⟩ | ⟨g1, g2, r, pi1, e, m1, s1, L⟩
  · rw [runCi_err e]; intro hh; cases hh
  · rw [runCi_err e]; intro hh; cases hh
  rw [runCi_ok e]; dsimp only
  rcases r with ⟨k, i⟩ | fr0
  swap
  · intro hh; cases hh
  have hk : entOf c (files c v1) p k = some (i, nameOf c name) := by rw [hent]; exact L
  have hks : (graphOf c (files c v1)).slot p k = some i := slot_some.2 ⟨_, hk⟩
  have md1 := md.ro m1 s1
  have hpi1 : pi1.ino = p := by rw [s1.ino, hpi]
  obtain ⟨pi2, v2, e2, B⟩ := inodeBranch_spec hc h.wf md1.mnt
  have md2 := md1.after B h.wf
  have hpi2 : pi2.ino = p := by rw [B.ino, hpi1]
  dsimp only
  rw [run_bind, e2]; dsimp only
  obtain ⟨hi2, hlive⟩ := h.now.graph.live p k i hks
  obtain ⟨g, hg⟩ : ∃ g, files c v1 i = some g := by
    change ((files c v1 i).map _).isSome = true at hlive
    rw [Option.isSome_map] at hlive
    exact Option.isSome_iff_exists.1 hlive
  have hg2 : files c v2 i = some g := by rw [B.same]; exact hg
  rw [run_bind]
  rcases inodeMount_spec hc B.ch.wf i .either false with ⟨h1, h2⟩ | ⟨g', h1, ⟨e, h2, h3⟩ | ⟨_, ci, v3, h3, fc, _, hv3⟩⟩
  · rw [hg2] at h1; cases h1
  · cases h2
  rw [hg2] at h1; injection h1 with h1; subst h1
  obtain ⟨rfl, _⟩ := hv3 rfl
  rw [h3]; dsimp only
  have hcidir : ci.dir = decide (g.mode = modeDir) := fc.dir
  by_cases hne : ci.dir = true ∧ 0 < ci.node.size
  · rw [if_pos hne]; intro hh; cases hh
  rw [if_neg hne]
  have hip : i ≠ p := by
    rintro rfl
    have : g = f := by rw [hd.1] at hg; injection hg with hg; exact hg.symm
    subst this
    refine hne ⟨by rw [hcidir]; exact decide_eq_true hd.2, ?_⟩
    rw [fc.size]
    by_contra hz
    have := (h.now.empty_size hc hp hd).1 (by omega) k
    rw [hk] at this; cases this
  have chB := B.ch; rw [hpi1] at chB
  have hur3 : v3.useReserved = false := by rw [chB.useReserved]; exact h.idle
  obtain ⟨b, hb, hb1, _⟩ := setReserved (c := c) (v := v3) hur3 true
  have hset : ∀ v' : Vol, ∃ b', setUseReserved c false v' = (.ok (), { v' with useReserved := b' }) := by
    intro v'; unfold setUseReserved; split
    · exact ⟨_, rfl⟩
    · exact ⟨v'.useReserved, rfl⟩
  have hwb := B.ch.wf.useRes b
  have mdb : MDir c { v3 with useReserved := b } pi2 (dirOf c f) := ⟨md2.mnt.useRes b, md2.file, md2.ok⟩
  rw [run_bind, hb]; dsimp only
  rw [run_bind]
  have hks' : (dirOf c f).slot k ≠ none := by rw [← hent, hk]; simp
  have hres : c.reserved = if c.dindirPtrs > 0 then 3 else if c.indirect > 0 then 2 else 1 := by
    unfold Conf.reserved; rw [hp.posix, hcan]; rfl
  have hpos : 0 < c.reserved := by rw [hres]; (repeat' split) <;> omega
  have hbt := hb1 rfl hpos
  subst hbt
  have hlt : k < (dirOf c f).n := by
    by_contra hx; exact hks' (mdb.ok.out k (by omega))
  have hroom := Room.congr h.wf B.ch.wf B.free B.almost hr
  have hfree : c.reserved ≤ v3.work.freeBlocks := by
    rcases hroom with h1 | h1
    · exact h1
    · exfalso
      exact hks' (md2.sparse hc hp hlt (h1 _ _ (posOf_ok hc (blk_max hp (Nat.lt_of_lt_of_le hlt mdb.ok.max))).1))
  rcases dirDelete_spec hc hp hwb mdb B.dirty hks' with ⟨pi4, v4, e4, D, _, hcost⟩ | ⟨pi4, v4, f', e4, U, ht⟩
  · exfalso
    have hfc : freeBlockCount c ({ v3 with useReserved := true } : Vol) = v3.work.freeBlocks := rfl
    rw [hfc] at hcost
    have h1 := brCost_le hc ⟨pi2, { v3 with useReserved := true }⟩ (tree c { v3 with useReserved := true } pi2.ino) (b := k / c.dpb) (blk_max hp (Nat.lt_of_lt_of_le hlt mdb.ok.max))
    rw [← hres] at h1
    have h2 : c.shrinkNeed ≤ c.reserved := by rw [hres]; unfold Conf.shrinkNeed; (repeat' split) <;> omega
    rcases hcost with hcost | hcost <;> omega
  · rw [onCi_eq e4]; dsimp only
    obtain ⟨b', hb'⟩ := hset v4
    have hb'' : setUseReserved c false v4 = (.ok (), { v4 with useReserved := false }) := by unfold setUseReserved; rw [if_pos hpos]; rfl
    rw [run_bind, hb'']; dsimp only
    have chE := U.ed.ch; rw [hpi2] at chE
    have chR := chE.reserved hc B.ch.wf hur3
    have hFi4 : files c { v4 with useReserved := false } ci.ino = some g := by
      rw [fc.ino, chR.files i hip]; exact hg2
    have m4 : Mnt c { v4 with useReserved := false } ci := chR.mnt ci (by rw [fc.ino]; exact hip) fc.mnt
    obtain ⟨v5, e5, _⟩ := inodeLinkDec_spec hc chR.wf m4 hFi4
    have hrun : (do ofExcept (.ok ()); criticalAssert (inodeLinkDec c ci) : VM Unit) { v4 with useReserved := false } = (.ok (), v5) := by
      rw [run_bind]
      show criticalAssert (inodeLinkDec c ci) { v4 with useReserved := false } = _
      unfold criticalAssert
      simp only [run_bind, run_attempt, e5]; rfl
    rw [hrun]; intro hh; cases hh

end RedFs
