import Verif.Lemmas.FsUpd
set_option linter.unusedSimpArgs false
set_option linter.unusedVariables false
namespace RedFs
open M Bitmap Vol

variable {c : Conf} {v v' : Vol} {ci ci' : Cinode}

theorem Mnt.ro (hc : c.Ok) (m : Mnt c v ci) (e : CiSame ci ci') (hs : SeekAll c ci' (tree c v ci.ino)) : Mnt c v ci' := by
  obtain ⟨w, h1, h2, h3, h4⟩ := m.nb
  refine ⟨by rw [e.ino]; exact m.ino, ⟨w, ?_, ?_, ?_, ?_⟩, ?_, ?_, ?_⟩
  · rw [e.nodeBuf, e.ino]; exact h1
  · rw [e.ino]; exact h2
  · rw [e.ino, e.node]; exact h3
  · rw [e.ino, e.branched]; exact h4
  · rw [e.dirty, e.branched]; exact m.dirty
  · rw [e.dir, e.node]; exact m.dir
  · rw [e.ino]; exact hs

/-- The file of a mounted inode. -/
def ciFile (c : Conf) (v : Vol) (ci : Cinode) : AFile :=
  ⟨ci.node.mode, ci.node.nlink, ci.node.pinode, ci.node.size, fun off => if off < ci.node.size then byteAt c v.blk (tree c v ci.ino) off else 0⟩

theorem Wf.file (h : Wf c v) (m : Mnt c v ci) : files c v ci.ino = some (ciFile c v ci) := h.files_mnt m

theorem read_file (hc : c.Ok) (h : Wf c v) (m : Mnt c v ci) (start len : Nat) :
    ∃ ci', dataRead c start len ⟨ci, v⟩ = (.ok ((ciFile c v ci).read start len), ⟨ci', v⟩) ∧ Mnt c v ci' ∧ CiSame ci ci' := by
  have fk := h.fok hc m
  obtain ⟨⟨ci', v'⟩, e, r⟩ := dataRead_ro hc fk.inv m.seek fk.size start len
  obtain rfl : v' = v := r.v
  refine ⟨ci', ?_, m.ro hc r.ci r.seek, r.ci⟩
  rw [e]
  congr 2
  unfold AFile.read ciFile
  simp only
  apply List.map_congr_left
  intro k hk
  rw [List.mem_range] at hk
  rw [if_pos (by omega)]

theorem seekRead_file (hc : c.Ok) (h : Wf c v) (m : Mnt c v ci) {b : Nat} (hb : b < c.dataBlocks) :
    ∃ ci', seekAndRead c b ⟨ci, v⟩ = (.ok (decide (tree c v ci.ino (posOf c b) ≠ 0)), ⟨ci', v⟩) ∧ Mnt c v ci' ∧ CiSame ci ci' ∧
      (tree c v ci.ino (posOf c b) ≠ 0 → ci'.pData = some (tree c v ci.ino (posOf c b))) := by
  have fk := h.fok hc m
  obtain ⟨⟨ci', v'⟩, e, r, _, hp⟩ := seekAndRead_ro hc fk.inv hb m.seek
  obtain rfl : v' = v := r.v
  exact ⟨ci', e, m.ro hc r.ci r.seek, r.ci, hp⟩

/-- Space used by a state. -/
theorem tot_def (v : Vol) : tot v = v.work.freeBlocks + v.almostFree := rfl

theorem newAt_above {V : Pos → Nat} {b : Nat} (hn : NewAt c v V b) {p : Pos} (ha : Above p (posOf c b)) : V p ≠ 0 ∧ NewB c v (V p) := by
  apply hn
  rcases ha with ⟨k, e⟩ | ⟨d, k, e⟩ <;> rw [e] <;> simp [brSet, anc, ancI]

/-- No space is needed to write to a new block again. -/
theorem brCost_zero {V : Pos → Nat} {b : Nat} (hn : NewAt c v V b) (ci : Cinode) :
    brCost c ⟨ci, v⟩ V 2 (posOf c b) = 0 := by
  have hz : ∀ p, brSet 2 (posOf c b) p → costAt c ⟨ci, v⟩ V p = 0 := by
    intro p hp; unfold costAt; rw [if_pos (hn p hp)]
  unfold brCost
  generalize posOf c b = q at *
  rcases q with e | ⟨e | ⟨e, d⟩, k⟩
  · simp [anc, ancI, ancX, costOf, hz (.ent e) (by simp [brSet])]
  · simp [anc, ancI, ancX, costOf, hz _ (show brSet 2 (.sub (.ent e) k) (.ent e) by simp [brSet, anc, ancI]),
      hz (.sub (.ent e) k) (by simp [brSet])]
  · simp [anc, ancI, ancX, costOf, hz _ (show brSet 2 (.sub (.sub e d) k) e by simp [brSet, anc, ancI]),
      hz _ (show brSet 2 (.sub (.sub e d) k) (.sub e d) by simp [brSet, anc, ancI]), hz (.sub (.sub e d) k) (by simp [brSet])]

/-- A node above `t` with blocks before `t` is also above `t - 1`. -/
theorem Above.prev (hc : c.Ok) {t : Nat} (ht : t < c.dataBlocks) {p : Pos} (h : p.first c < t) (ha : Above p (posOf c t)) :
    Above p (posOf c (t - 1)) := by
  have hie := hc.ie_pos
  have hco := coord_posOf hc ht
  generalize posOf c t = q at hco ha
  cases hco with
  | direct h1 => rcases ha with ⟨k, e⟩ | ⟨d, k, e⟩ <;> cases e
  | indir e k h1 h2 h3 hb =>
    have hp : p = .ent e := by
      rcases ha with ⟨k', e'⟩ | ⟨d', k', e'⟩
      · injection e' with e1 e2; exact e1.symm
      · injection e' with e1 e2; cases e1
    subst hp
    simp only [Pos.first] at h
    rw [if_neg (by omega), if_pos h2] at h
    have : Coord c (t - 1) (.sub (.ent e) (k - 1)) := .indir e (k - 1) h1 h2 (by omega) (by omega)
    rw [← this.eq hc]
    exact Or.inl ⟨_, rfl⟩
  | dindir e d k h1 h2 h3 h4 hb =>
    have hh : c.height e = 2 := by unfold Conf.height; rw [if_neg (by omega), if_neg (by omega)]
    have hp : p = .sub (.ent e) d ∨ p = .ent e := by
      rcases ha with ⟨k', e'⟩ | ⟨d', k', e'⟩
      · injection e' with e1 e2; exact Or.inl e1.symm
      · injection e' with e1 e2; injection e1 with e1 _; exact Or.inr e1.symm
    by_cases hk : k = 0
    · rcases hp with rfl | rfl
      · simp only [Pos.first, Pos.lvl, hh] at h
        rw [if_neg (by omega), if_neg (by omega)] at h
        simp at h
        omega
      · simp only [Pos.first] at h
        rw [if_neg (by omega), if_neg (by omega)] at h
        have hd : 0 < d := by
          rcases Nat.eq_zero_or_pos d with hd | hd
          · rw [hd] at hb; simp at hb; omega
          · exact hd
        obtain ⟨d', rfl⟩ : ∃ d', d = d' + 1 := ⟨d - 1, by omega⟩
        have : Coord c (t - 1) (.sub (.sub (.ent e) d') (c.indirEntries - 1)) := by
          refine .dindir e d' _ h1 h2 (by omega) (by omega) ?_
          rw [Nat.add_mul] at hb; omega
        rw [← this.eq hc]
        exact Or.inr ⟨_, _, rfl⟩
    · have : Coord c (t - 1) (.sub (.sub (.ent e) d) (k - 1)) := .dindir e d (k - 1) h1 h2 h3 (by omega) (by omega)
      rw [← this.eq hc]
      rcases hp with rfl | rfl
      · exact Or.inl ⟨_, rfl⟩
      · exact Or.inr ⟨_, _, rfl⟩

theorem OldAbove.not (hc : c.Ok) {V : Pos → Nat} {t b : Nat} (h : OldAbove c v V t) (hb : b = t ∨ b + 1 = t) : ¬ NewAt c v V b := by
  intro hn
  obtain ⟨ht, p, _, h0, hnew, hf, ha⟩ := h
  apply hnew
  rcases hb with rfl | hb
  · exact (newAt_above hn ha).2
  · have := ha.prev hc ht hf
    rw [show t - 1 = b by omega] at this
    exact (newAt_above hn this).2

/-- An operation on the mounted file `ci` has changed its contents to `f`. -/
structure Edit (c : Conf) (v v' : Vol) (ci ci' : Cinode) (f : AFile) : Prop where
  ch : Ch c v v' (· = ci.ino)
  file : files c v' ci.ino = some f
  ino : ci'.ino = ci.ino
  node : inodeAt c v'.blk (curBit c v') ci.ino = some ci'.node
  oth : ∀ j, j ≠ ci.ino → ∀ p, PosOk c p → tree c v' j p = tree c v j p

theorem Wf.edit (hc : c.Ok) (h : Wf c v) (m : Mnt c v ci) (hd : ci.dirty = true) {V' : Pos → Nat}
    (ok : FOk c (Others c v ci.ino) ⟨ci', v'⟩ V') (fr : FrN c (Others c v ci.ino) ⟨ci, v⟩ ⟨ci', v'⟩) {f : AFile}
    (hm : ci'.node.mode = ci.node.mode) (hf : f.mode = ci'.node.mode) (hl : f.nlink = ci'.node.nlink)
    (hp : f.parent = ci'.node.pinode) (hs : f.size = ci'.node.size)
    (hb : ∀ off, f.bytes off = if off < ci'.node.size then byteAt c v'.blk V' off else 0) :
    Edit c v v' ci ci' f ∧ (SeekAll c ci' V' → Mnt c v' ci') ∧ ∀ p, PosOk c p → tree c v' ci.ino p = V' p := by
  have d := h.done (s := ⟨ci, v⟩) (s' := ⟨ci', v'⟩) hc m hd ok fr hm
  refine ⟨⟨d.ch, ?_, fr.ino, d.at', d.oth⟩, d.mnt, d.tree⟩
  unfold files
  rw [fileOf_eq, d.at']
  simp only [Option.map_some, Option.some.injEq]
  ext1
  · exact hf.symm
  · exact hl.symm
  · exact hp.symm
  · exact hs.symm
  · funext off
    simp only [hb off]
    split
    · next ho =>
      have hsz : ci'.node.size ≤ c.sizeMax := ok.size
      have hpo := (posOf_ok hc (div_lt_data hc (by omega : off < c.sizeMax))).1
      exact byteAt_congr hc (d.tree _ hpo) (fun _ => rfl)
    · rfl

theorem write_file (hc : c.Ok) (h : Wf c v) (m : Mnt c v ci) (hd : ci.dirty = true) (start len : Nat)
    (hpd : ci.pData = none ∨ len < c.blockSize) (b : Nat → Byte) :
    ((c.sizeMax < start ∨ (start = c.sizeMax ∧ 0 < len)) ∧ dataWrite c start len b ⟨ci, v⟩ = (.error .efbig, ⟨ci, v⟩)) ∨
    (0 < len ∧ ∃ ci' v', dataWrite c start len b ⟨ci, v⟩ = (.error .enospc, ⟨ci', v'⟩) ∧ Edit c v v' ci ci' (ciFile c v ci) ∧ Mnt c v' ci' ∧
      ci'.dirty = true ∧ tot v' = tot v ∧ NoRoom c ⟨ci, v⟩ (tree c v ci.ino) start (min len (c.sizeMax - start)) ∧
      (∀ b, b < c.dataBlocks → (tree c v' ci.ino (posOf c b) ≠ 0 ↔ tree c v ci.ino (posOf c b) ≠ 0))) ∨
    (len = 0 ∧ dataWrite c start len b ⟨ci, v⟩ = (.ok 0, ⟨ci, v⟩)) ∨
    ∃ n ci' v', dataWrite c start len b ⟨ci, v⟩ = (.ok n, ⟨ci', v'⟩) ∧ 0 < n ∧ n ≤ len ∧ start + n ≤ c.sizeMax ∧
      Edit c v v' ci ci' ((ciFile c v ci).write start n b) ∧ Mnt c v' ci' ∧ ci'.dirty = true ∧ tot v' ≤ tot v ∧
      ((∀ off, start ≤ off → off < start + n → tree c v ci.ino (posOf c (off / c.blockSize)) ≠ 0) → tot v' = tot v) ∧
      (v.useReserved = false → tot v' = tot v ∨ c.reserved ≤ tot v') ∧
      (n < min len (c.sizeMax - start) → NoRoom c ⟨ci, v⟩ (tree c v ci.ino) start (min len (c.sizeMax - start))) ∧
      (∀ b, b < c.dataBlocks → (tree c v' ci.ino (posOf c b) ≠ 0 ↔ tree c v ci.ino (posOf c b) ≠ 0 ∨ Blks c start (start + n) b)) := by
  have fk := h.fok hc m
  rcases dataWrite_spec hc fk hd m.seek start len hpd b with h1 | ⟨h0, ⟨ci', v'⟩, V', e, F, hroom⟩ | h1 | ⟨n, ⟨ci', v'⟩, V', e, n0, nl, nm, W, hroom⟩
  · exact Or.inl h1
  · right; left
    obtain ⟨ed, hm, htr⟩ := h.edit hc m hd F.ok F.fr.toN (f := ciFile c v ci) F.fr.mode F.fr.mode.symm F.fr.nlink.symm F.fr.pinode.symm F.fr.size.symm (by
      intro off
      have := F.fr.size; simp only at this
      show (if off < ci.node.size then _ else _) = _
      rw [this]
      split
      · next ho => exact (F.bytes off ho).symm
      · rfl)
    exact ⟨h0, ci', v', e, ed, hm F.seek, F.fr.dirty.trans hd, F.tot, hroom, fun b hb => by rw [htr _ (posOf_ok hc hb).1]; exact F.alloc b hb⟩
  · exact Or.inr (Or.inr (Or.inl h1))
  · right; right; right
    obtain ⟨ed, hm, htr⟩ := h.edit hc m hd W.ok W.frn (f := (ciFile c v ci).write start n b) W.mode W.mode.symm W.nlink.symm W.pinode.symm W.size.symm (by
      intro off
      have hs := W.size; simp only at hs
      show (if start ≤ off ∧ off < start + n then b (off - start) else if off < ci.node.size then _ else 0) = _
      by_cases ho : off < ci'.node.size
      · rw [if_pos ho, W.bytes off ho]
      · rw [if_neg ho]
        have h1 : ¬ (start ≤ off ∧ off < start + n) := by omega
        have h2 : ¬ off < ci.node.size := by omega
        rw [if_neg h1, if_neg h2])
    exact ⟨n, ci', v', e, n0, nl, nm, ed, hm W.seek, W.frn.dirty.trans hd, W.totLe, W.totEq, W.rsv, hroom, fun b hb => by rw [htr _ (posOf_ok hc hb).1]; exact W.alloc b hb⟩

/-- Changes to another file do not make blocks old. -/
theorem NewAt.other (hc : c.Ok) (h : Wf c v) {f : AFile} (ed : Edit c v v' ci ci' f) {i b : Nat} (hi : i ≠ ci.ino) (hb : b < c.dataBlocks)
    (hn : NewAt c v (tree c v i) b) : NewAt c v' (tree c v' i) b := by
  intro p hp
  have hok := brSet_ok hc hb hp
  have := hn p hp
  rw [ed.oth i hi p hok]
  refine ⟨this.1, ?_, ?_⟩
  · have h1 := (ed.ch.wf.fs.range i p hok (by rw [show treeOf c v'.blk (curBit c v') i p = tree c v' i p from rfl, ed.oth i hi p hok]; exact this.1)).2.2
    rw [show treeOf c v'.blk (curBit c v') i p = tree c v' i p from rfl, ed.oth i hi p hok] at h1
    exact h1
  · obtain ⟨r1, r2, _⟩ := h.fs.range i p hok this.1
    rw [ed.ch.step.cbits (x := tree c v i p) hc ⟨by have := Conf.Ok.first_ge c; exact Nat.le_trans (by omega) r1, r2⟩]; exact this.2.2

theorem write_one (hc : c.Ok) (h : Wf c v) (m : Mnt c v ci) (hd : ci.dirty = true) {start len : Nat} (h0 : 0 < len) (hl : len < c.blockSize)
    (hsp : start % c.blockSize + len ≤ c.blockSize) (hin : start + len ≤ c.sizeMax) (b : Nat → Byte) :
    (∃ ci' v', dataWrite c start len b ⟨ci, v⟩ = (.error .enospc, ⟨ci', v'⟩) ∧ Edit c v v' ci ci' (ciFile c v ci) ∧ Mnt c v' ci' ∧
      ci'.dirty = true ∧ tot v' = tot v ∧
      (start ≤ ci.node.size → freeBlockCount c v < brCost c ⟨ci, v⟩ (tree c v ci.ino) 2 (posOf c (start / c.blockSize))) ∧ freeBlockCount c v < 6 ∧
      ∀ b, b < c.dataBlocks → NewAt c v (tree c v ci.ino) b → NewAt c v' (tree c v' ci.ino) b) ∨
    ∃ ci' v', dataWrite c start len b ⟨ci, v⟩ = (.ok len, ⟨ci', v'⟩) ∧
      Edit c v v' ci ci' ((ciFile c v ci).write start len b) ∧ Mnt c v' ci' ∧ ci'.dirty = true ∧ tot v' ≤ tot v ∧
      ((∀ off, start ≤ off → off < start + len → tree c v ci.ino (posOf c (off / c.blockSize)) ≠ 0) → tot v' = tot v) ∧
      (v.useReserved = false → tot v' = tot v ∨ c.reserved ≤ tot v') ∧ NewAt c v' (tree c v' ci.ino) (start / c.blockSize) ∧ v.work.freeBlocks ≤ v'.work.freeBlocks + 6 := by
  have fk := h.fok hc m
  rcases dataWrite_one hc fk hd m.seek h0 hl hsp hin b with ⟨⟨ci', v'⟩, V', e, F, g, g6⟩ | ⟨⟨ci', v'⟩, V', e, W, g⟩
  · left
    obtain ⟨ed, hm, htr⟩ := h.edit hc m hd F.ok F.fr.toN (f := ciFile c v ci) F.fr.mode F.fr.mode.symm F.fr.nlink.symm F.fr.pinode.symm F.fr.size.symm (by
      intro off
      have := F.fr.size; simp only at this
      show (if off < ci.node.size then _ else _) = _
      rw [this]
      split
      · next ho => exact (F.bytes off ho).symm
      · rfl)
    refine ⟨ci', v', e, ed, hm F.seek, F.fr.dirty.trans hd, F.tot, g, g6, fun b hb hn => NewAt.congr hc hb htr (F.new b hb hn)⟩
  · right
    obtain ⟨ed, hm, htr⟩ := h.edit hc m hd W.ok W.frn (f := (ciFile c v ci).write start len b) W.mode W.mode.symm W.nlink.symm W.pinode.symm W.size.symm (by
      intro off
      have hs := W.size; simp only at hs
      show (if start ≤ off ∧ off < start + len then b (off - start) else if off < ci.node.size then _ else 0) = _
      by_cases ho : off < ci'.node.size
      · rw [if_pos ho, W.bytes off ho]
      · rw [if_neg ho]
        have h1 : ¬ (start ≤ off ∧ off < start + len) := by omega
        have h2 : ¬ off < ci.node.size := by omega
        rw [if_neg h1, if_neg h2])
    exact ⟨ci', v', e, ed, hm W.seek, W.frn.dirty.trans hd, W.totLe, W.totEq, W.rsv, g.congr hc (div_lt_data hc (by omega)) htr, (by
      obtain ⟨L, h1, h2, h3, h4⟩ := one_cover hc (size := ci.node.size) h0 hsp hin
      have := W.spent L h1 h2 h3
      simp only at this; omega)⟩

theorem trunc_file (hc : c.Ok) (h : Wf c v) (m : Mnt c v ci) (hd : ci.dirty = true) (size : Nat) :
    (c.sizeMax < size ∧ dataTruncate c size ⟨ci, v⟩ = (.error .efbig, ⟨ci, v⟩)) ∨
    (size ≤ c.sizeMax ∧ ∃ ci' v', dataTruncate c size ⟨ci, v⟩ = (.error .enospc, ⟨ci', v'⟩) ∧ Edit c v v' ci ci' (ciFile c v ci) ∧ Mnt c v' ci' ∧
      ci'.dirty = true ∧ tot v' = tot v ∧ (size ≤ ci.node.size → freeBlockCount c v < c.shrinkNeed ∧ 0 < size ∧
        OldAbove c v (tree c v ci.ino) ((size + c.blockSize - 1) / c.blockSize)) ∧
      (∀ b, b < c.dataBlocks → NewAt c v (tree c v ci.ino) b → NewAt c v' (tree c v' ci.ino) b) ∧
      (ci.node.size < size → Short c ⟨ci, v⟩ (tree c v ci.ino) (ci.node.size / c.blockSize)) ∧
      (∀ b, b < c.dataBlocks → (tree c v' ci.ino (posOf c b) ≠ 0 ↔ tree c v ci.ino (posOf c b) ≠ 0))) ∨
    (size ≤ c.sizeMax ∧ ∃ ci' v', dataTruncate c size ⟨ci, v⟩ = (.ok (), ⟨ci', v'⟩) ∧ Edit c v v' ci ci' ((ciFile c v ci).truncate size) ∧
      tot v ≤ tot v' ∧
      (∀ b, b < c.dataBlocks → (tree c v' ci.ino (posOf c b) ≠ 0 ↔ tree c v ci.ino (posOf c b) ≠ 0 ∧ b * c.blockSize < size))) := by
  have fk := h.fok hc m
  rcases dataTruncate_spec hc fk m.seek size (Or.inl hd) with h1 | ⟨h0, ⟨ci', v'⟩, V', e, F, g, hsh⟩ | ⟨h0, ⟨ci', v'⟩, V', e, T⟩
  · exact Or.inl h1
  · right; left
    obtain ⟨ed, hm, htr⟩ := h.edit hc m hd F.ok F.fr.toN (f := ciFile c v ci) F.fr.mode F.fr.mode.symm F.fr.nlink.symm F.fr.pinode.symm F.fr.size.symm (by
      intro off
      have := F.fr.size; simp only at this
      show (if off < ci.node.size then _ else _) = _
      rw [this]
      split
      · next ho => exact (F.bytes off ho).symm
      · rfl)
    exact ⟨h0, ci', v', e, ed, hm F.seek, F.fr.dirty.trans hd, F.tot, g, fun b hb hn => NewAt.congr hc hb htr (F.new b hb hn), hsh,
      fun b hb => by rw [htr _ (posOf_ok hc hb).1]; exact F.alloc b hb⟩
  · right; right
    obtain ⟨ed, hm, htr⟩ := h.edit hc m hd T.ok T.frn (f := (ciFile c v ci).truncate size) T.mode T.mode.symm T.nlink.symm T.pinode.symm T.size.symm (by
      intro off
      have hs := T.size; simp only at hs
      show (if off < size then if off < ci.node.size then _ else 0 else 0) = _
      rw [hs]
      split
      · next ho => rw [T.bytes off ho]
      · rfl)
    exact ⟨h0, ci', v', e, ed, T.tot, fun b hb => by rw [htr _ (posOf_ok hc hb).1]; exact T.alloc b hb⟩

end RedFs
