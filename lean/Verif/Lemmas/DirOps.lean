import Verif.Lemmas.DirLookup
set_option linter.unusedSimpArgs false
set_option linter.unusedVariables false
namespace RedFs
open M Bitmap Vol Str

variable {c : Conf} {v v' : Vol} {ci ci' : Cinode} {d : ADir}

/-! ### The bytes written -/

theorem take_nameOf (name : List Byte) : name.take (nameOf c name).length = nameOf c name := takeWhile_take _ _

theorem direntBytes_enc {name : List Byte} (hn : CStr.Ok name) (i j : Nat) :
    direntBytes i name (nameOf c name).length j = encEnt (some (i, nameOf c name)) j := by
  unfold direntBytes
  show _ = if j < 4 then leByte i j else cget (nameOf c name) (j - 4)
  have hl : (nameOf c name).length ≤ name.length := by
    unfold nameOf; exact (List.takeWhile_prefix _).length_le
  rw [strNCpy_ok name hn, take_nameOf, show (nameOf c name).length - name.length = 0 by omega, List.replicate_zero, List.append_nil]

theorem direntBytes_zero (j : Nat) : direntBytes 0 [] 0 j = 0 := by
  unfold direntBytes
  split
  · unfold leByte; simp
  · rfl

theorem nameOf_nul {name : List Byte} (hn : CStr.Ok name) : ∀ b ∈ nameOf c name, b ≠ 0#8 := by
  intro b hb
  exact hn b ((List.takeWhile_prefix _).subset hb)

theorem nameOf_sep (name : List Byte) : ∀ b ∈ nameOf c name, b ≠ c.sep := by
  intro b hb
  have := List.all_takeWhile (p := fun x => decide (x ≠ c.sep)) (l := name)
  rw [List.all_eq_true] at this
  simpa using this b hb

theorem isDots_iff {name : List Byte} : isDots name (nameOf c name).length = true ↔ nameOf c name = [46#8] ∨ nameOf c name = [46#8, 46#8] := by
  have ht := take_nameOf (c := c) name
  generalize nameOf c name = s at *
  unfold isDots
  rcases s with _ | ⟨a, _ | ⟨b, _ | ⟨d, s⟩⟩⟩
  · simp
  · rcases name with _ | ⟨x, name⟩
    · simp at ht
    · simp at ht; subst ht; simp [cget]
  · rcases name with _ | ⟨x, _ | ⟨y, name⟩⟩
    · simp at ht
    · simp at ht
    · simp at ht; obtain ⟨rfl, rfl⟩ := ht; simp [cget]
  · simp

theorem nameOk_of {name : List Byte} (hn : CStr.Ok name) (h1 : 1 ≤ (nameOf c name).length) (h2 : (nameOf c name).length ≤ c.nameMax)
    (h3 : isDots name (nameOf c name).length = false) : NameOk c (nameOf c name) := by
  have : ¬ (nameOf c name = [46#8] ∨ nameOf c name = [46#8, 46#8]) := by rw [← isDots_iff, h3]; simp
  exact ⟨h1, h2, nameOf_nul hn, nameOf_sep _, fun h => this (Or.inl h), fun h => this (Or.inr h)⟩

/-! ### Writing an entry -/

/-- The mounted directory `ci` has become `d'`; the file is now `f'`. -/
structure DUpd (c : Conf) (v v' : Vol) (ci ci' : Cinode) (f' : AFile) (d' : ADir) : Prop where
  ed : Edit c v v' ci ci' f'
  nlink : f'.nlink = ci.node.nlink
  parent : f'.parent = ci.node.pinode
  file : DirFile c f' d'
  ok : DirOk c d'

theorem DUpd.mdir {f' : AFile} {d' : ADir} (h : DUpd c v v' ci ci' f' d') (m : Mnt c v' ci') : MDir c v' ci' d' := by
  have := h.ed.ch.wf.file m
  rw [h.ed.ino, h.ed.file] at this
  injection this with this
  exact ⟨m, this ▸ h.file, h.ok⟩

theorem DUpd.ciFile {f' : AFile} {d' : ADir} (h : DUpd c v v' ci ci' f' d') (m : Mnt c v' ci') : ciFile c v' ci' = f' := by
  have := h.ed.ch.wf.file m
  rw [h.ed.ino, h.ed.file] at this
  injection this with this; exact this.symm

/-- Nothing has changed for the user. -/
theorem MDir.keep (h : MDir c v ci d) (ed : Edit c v v' ci ci' (ciFile c v ci)) : DUpd c v v' ci ci' (ciFile c v ci) d :=
  ⟨ed, rfl, rfl, h.file, h.ok⟩

/-- The failure of an update of a directory. -/
structure DFail (c : Conf) (v v' : Vol) (ci ci' : Cinode) (d : ADir) : Prop where
  upd : DUpd c v v' ci ci' (ciFile c v ci) d
  mnt : Mnt c v' ci'
  dirty : ci'.dirty = true
  tot : tot v' = tot v
  new : ∀ b, b < c.dataBlocks → NewAt c v (tree c v ci.ino) b → NewAt c v' (tree c v' ci.ino) b

/-- The position of an entry. -/
theorem ent_pos (hc : c.Ok) (hp : c.PosixOk) {k : Nat} (hk : k < c.direntsMax) :
    0 < c.ds ∧ c.ds < c.blockSize ∧ c.idxOff k % c.blockSize + c.ds ≤ c.blockSize ∧ c.idxOff k + c.ds ≤ c.sizeMax ∧ c.idxOff k / c.blockSize = k / c.dpb := by
  have hd := ds_ge hp
  have h1 := off_mod hp (k := k) (j := 0) (by omega)
  have h2 := off_div hp (k := k) (j := 0) (by omega)
  rw [Nat.add_zero] at h1 h2
  exact ⟨by omega, hp.fits, by rw [h1]; have := idx_in hp k; omega, idxOff_max hp hk, h2⟩

theorem dirEntryWrite_run (hd : MDir c v ci d) (hdt : ci.dirty = true) {k i len : Nat} {name : List Byte} (hk : k < c.direntsMax)
    (hi : c.inodeValid i = true ∨ i = 0) (hl : len ≤ c.nameMax) (h0 : decide (len = 0) = decide (i = 0)) :
    dirEntryWrite c k i name len ⟨ci, v⟩ = (match dataWrite c (c.idxOff k) c.ds (direntBytes i name len) ⟨ci, v⟩ with
      | (.ok _, s) => (.ok (), s)
      | (.error e, s) => (.error e, s)) := by
  unfold dirEntryWrite
  simp only [run_bind, run_get]
  rw [if_neg, if_neg (by rw [hd.dir]; simp)]
  · simp only [run_bind]
    rcases dataWrite c (c.idxOff k) c.ds (direntBytes i name len) ⟨ci, v⟩ with ⟨r | a, s⟩ <;> rfl
  · rintro (h | h | h | h | h)
    · rw [hdt] at h; cases h
    · omega
    · rcases hi with hi | hi
      · rw [hi] at h; cases h.1
      · exact h.2 hi
    · omega
    · exact h h0

/-- Setting an entry. -/
theorem dirEntryWrite_set (hc : c.Ok) (hp : c.PosixOk) (h : Wf c v) (hd : MDir c v ci d) (hdt : ci.dirty = true) {k i : Nat} {name : List Byte}
    (hn : CStr.Ok name) (hk : k < c.direntsMax) (hkn : k ≤ d.n) (hi : c.inodeValid i = true) (hs : NameOk c (nameOf c name))
    (hu : ∀ k' i', d.slot k' = some (i', nameOf c name) → k' = k) :
    (∃ ci' v', dirEntryWrite c k i name (nameOf c name).length ⟨ci, v⟩ = (.error .enospc, ⟨ci', v'⟩) ∧ DFail c v v' ci ci' d ∧
      (k < d.n → freeBlockCount c v < brCost c ⟨ci, v⟩ (tree c v ci.ino) 2 (posOf c (k / c.dpb))) ∧ freeBlockCount c v < 6) ∨
    ∃ ci' v' f', dirEntryWrite c k i name (nameOf c name).length ⟨ci, v⟩ = (.ok (), ⟨ci', v'⟩) ∧
      DUpd c v v' ci ci' f' (d.set k (i, nameOf c name)) ∧ Mnt c v' ci' ∧ ci'.dirty = true ∧ tot v' ≤ tot v ∧
      (d.slot k ≠ none → tot v' = tot v) ∧
      (v.useReserved = false → tot v' = tot v ∨ c.reserved ≤ tot v') ∧ NewAt c v' (tree c v' ci.ino) (k / c.dpb) ∧ v.work.freeBlocks ≤ v'.work.freeBlocks + 6 := by
  obtain ⟨p1, p2, p3, p4, p5⟩ := ent_pos hc hp hk
  have hin := inode_small hc hi
  rw [dirEntryWrite_run hd hdt hk (Or.inl hi) hs.max (by have := hs.pos; simp [hin.2]; intro h; rw [h] at this; simp at this)]
  rcases write_one hc h hd.mnt hdt p1 p2 p3 p4 (direntBytes i name (nameOf c name).length) with ⟨ci', v', e, E, m, dt, t, g1, g6, g2⟩ | ⟨ci', v', e, E, m, dt, t1, t2, t3, g, gs⟩
  · left
    rw [e]
    refine ⟨ci', v', rfl, ⟨hd.keep E, m, dt, t, g2⟩, fun hlt => ?_, g6⟩
    rw [p5] at g1
    apply g1
    rw [hd.size]
    have := (dirSize_le hp (n := d.n) (k := k)).2 hlt
    omega
  · right
    rw [e]
    refine ⟨ci', v', _, rfl, ⟨E, rfl, rfl, hd.file.write hp k (i, nameOf c name) (fun j _ => direntBytes_enc hn i j), hd.ok.set hk hkn hi hs hu⟩, m, dt, t1, ?_, t3, (by rw [← p5]; exact g), gs⟩
    intro hne
    apply t2
    intro off h1 h2
    obtain ⟨j, rfl⟩ := Nat.exists_eq_add_of_le h1
    rw [off_div hp (by omega)]
    have hkn' : k < d.n := by
      by_contra hx; exact hne (hd.ok.out k (by omega))
    exact fun hz => hne (hd.sparse hc hp hkn' hz)

/-- Freeing an entry that is not the last one. -/
theorem dirEntryWrite_clear (hc : c.Ok) (hp : c.PosixOk) (h : Wf c v) (hd : MDir c v ci d) (hdt : ci.dirty = true) {k : Nat}
    (hs : d.slot k ≠ none) (hkn : k + 1 ≠ d.n) :
    (∃ ci' v', dirEntryWrite c k 0 [] 0 ⟨ci, v⟩ = (.error .enospc, ⟨ci', v'⟩) ∧ DFail c v v' ci ci' d ∧
      freeBlockCount c v < brCost c ⟨ci, v⟩ (tree c v ci.ino) 2 (posOf c (k / c.dpb))) ∨
    ∃ ci' v' f', dirEntryWrite c k 0 [] 0 ⟨ci, v⟩ = (.ok (), ⟨ci', v'⟩) ∧ DUpd c v v' ci ci' f' (d.del k) ∧ tot v' = tot v := by
  have hlt : k < d.n := by
    by_contra hx; exact hs (hd.ok.out k (by omega))
  have hk : k < c.direntsMax := Nat.lt_of_lt_of_le hlt hd.ok.max
  obtain ⟨p1, p2, p3, p4, p5⟩ := ent_pos hc hp hk
  rw [dirEntryWrite_run hd hdt hk (Or.inr rfl) (Nat.zero_le _) rfl]
  rcases write_one hc h hd.mnt hdt p1 p2 p3 p4 (direntBytes 0 [] 0) with ⟨ci', v', e, E, m, dt, t, g1, g6, g2⟩ | ⟨ci', v', e, E, m, dt, t1, t2, t3, g, gs⟩
  · left
    rw [e]
    refine ⟨ci', v', rfl, ⟨hd.keep E, m, dt, t, g2⟩, ?_⟩
    rw [p5] at g1
    apply g1
    rw [hd.size]
    have := (dirSize_le hp (n := d.n) (k := k)).2 hlt
    omega
  · right
    rw [e]
    have hf := hd.file.clear hp hlt (b := direntBytes 0 [] 0) (fun j _ => direntBytes_zero j)
    have hdel : d.del k = ⟨d.n, fun j => if j = k then none else d.slot j⟩ := by
      unfold ADir.del; rw [if_neg hkn]
    rw [← hdel] at hf
    refine ⟨ci', v', _, rfl, ⟨E, rfl, rfl, hf, hd.ok.del k⟩, t2 ?_⟩
    intro off h1 h2
    obtain ⟨j, rfl⟩ := Nat.exists_eq_add_of_le h1
    rw [off_div hp (by omega)]
    exact fun hz => hs (hd.sparse hc hp hlt hz)

/-! ### Deleting an entry -/

theorem trimBlock_spec (hc : c.Ok) (hp : c.PosixOk) (ok : DirOk c d) {x : Blk} {idx : Nat} : ∀ k, Holds c d x idx k →
    trimBlock c x k ≤ k ∧ (∀ j, k - trimBlock c x k ≤ j → j < k → d.slot (idx + j) = none) ∧
      (trimBlock c x k < k → d.slot (idx + (k - trimBlock c x k - 1)) ≠ none) := by
  intro k
  induction k with
  | zero => intro _; unfold trimBlock; exact ⟨Nat.le_refl _, fun j h1 h2 => by omega, fun h => by omega⟩
  | succ k ih =>
    intro H
    unfold trimBlock
    have hu := H.used hc hp ok (k := k) (by omega)
    split
    · next hne =>
      refine ⟨Nat.zero_le _, fun j h1 h2 => by omega, fun _ => ?_⟩
      rw [show k + 1 - 0 - 1 = k by omega]
      exact fun hz => hne (hu.2 hz)
    · next hz =>
      have hz : direntIno c x k = 0 := by simpa using hz
      obtain ⟨i1, i2, i3⟩ := ih (fun j hj => H j (by omega))
      refine ⟨by omega, fun j h1 h2 => ?_, fun hlt => ?_⟩
      · by_cases hj : j = k
        · rw [hj]; exact hu.1 hz
        · exact i2 j (by omega) (by omega)
      · rw [show k + 1 - (trimBlock c x k + 1) - 1 = k - trimBlock c x k - 1 by omega]
        exact i3 (by omega)

theorem lastUsed_skip {slot : Nat → Option (Nat × List Byte)} {m n : Nat} (hm : m ≤ n) (h : ∀ k, m ≤ k → k < n → slot k = none) :
    lastUsed slot n = lastUsed slot m := by
  induction n with
  | zero => rw [show m = 0 by omega]
  | succ n ih =>
    by_cases he : m = n + 1
    · rw [he]
    · conv_lhs => unfold lastUsed
      rw [if_pos (h n (by omega) (by omega))]
      exact ih (by omega) (fun k h1 h2 => h k h1 (by omega))

theorem trimLoop_spec (hc : c.Ok) (hp : c.PosixOk) (h : Wf c v) : ∀ fuel n ci, MDir c v ci d → n ≤ fuel → n ≤ d.n →
    (n % c.dpb = 0 ∨ tree c v ci.ino (posOf c ((n - 1) / c.dpb)) ≠ 0) →
    ∃ ci', trimLoop c fuel n ⟨ci, v⟩ = (.ok (lastUsed d.slot n), ⟨ci', v⟩) ∧ Mnt c v ci' ∧ CiSame ci ci' := by
  intro fuel
  induction fuel with
  | zero =>
    intro n ci hd hf hn hs
    unfold trimLoop
    have : n = 0 := by omega
    subst this
    rw [if_pos rfl]
    exact ⟨ci, rfl, hd.mnt, .refl ci⟩
  | succ fuel ih =>
    intro n ci hd hf hn hs
    unfold trimLoop
    by_cases h0 : n = 0
    · subst h0
      rw [if_pos rfl]
      exact ⟨ci, rfl, hd.mnt, .refl ci⟩
    rw [if_neg h0]
    have hdp := dpb_pos hp
    have hmax := hd.ok.max
    obtain ⟨ci1, e, m1, s1, hpd⟩ := seekRead_file hc h hd.mnt (b := (n - 1) / c.dpb) (blk_max hp (by omega))
    have hdm := Nat.div_add_mod (n - 1) c.dpb
    have hml := Nat.mod_lt (n - 1) hdp
    rw [Nat.mul_comm] at hdm
    simp only [run_bind, e]
    by_cases hz : tree c v ci.ino (posOf c ((n - 1) / c.dpb)) = 0
    · rw [if_neg (by simp [hz])]
      have hm : n % c.dpb = 0 := by rcases hs with hs | hs; exact hs; exact absurd hz hs
      have hge : c.dpb ≤ n := Nat.le_of_dvd (by omega) (Nat.dvd_of_mod_eq_zero hm)
      have hfree : ∀ k, n - c.dpb ≤ k → k < n → d.slot k = none := by
        intro k h1 h2
        apply hd.sparse hc hp (by omega)
        rw [show k / c.dpb = (n - 1) / c.dpb from ?_]; exact hz
        obtain ⟨q, rfl⟩ := Nat.dvd_of_mod_eq_zero hm
        obtain ⟨q, rfl⟩ : ∃ q', q = q' + 1 := ⟨q - 1, by
          rcases q with _ | q
          · simp at h0
          · simp⟩
        rw [Nat.mul_add, Nat.mul_one] at h1 h2
        obtain ⟨t, rfl⟩ := Nat.exists_eq_add_of_le (show c.dpb * q ≤ k by omega)
        rw [Nat.mul_add, Nat.mul_one, Nat.mul_add_div hdp, Nat.add_sub_assoc hdp, Nat.mul_add_div hdp, Nat.div_eq_of_lt (show t < c.dpb by omega),
          Nat.div_eq_of_lt (show c.dpb - 1 < c.dpb by omega)]
      have hs2 : (n - c.dpb) % c.dpb = 0 := by
        obtain ⟨t, ht⟩ := Nat.exists_eq_add_of_le hge
        rw [ht, Nat.add_sub_cancel_left]; rw [ht, Nat.add_mod_left] at hm; exact hm
      obtain ⟨ci', e', m', s'⟩ := ih (n - c.dpb) ci1 (hd.ro m1 s1) (by omega) (by omega) (Or.inl hs2)
      refine ⟨ci', ?_, m', s1.trans s'⟩
      rw [e', lastUsed_skip (show n - c.dpb ≤ n by omega) hfree]
    · rw [if_pos (by simp [hz])]
      have hpd := hpd hz
      have hbuf : dataBuf ⟨ci1, v⟩ = (.ok (v.blk (tree c v ci.ino (posOf c ((n - 1) / c.dpb)))), ⟨ci1, v⟩) := by
        unfold dataBuf; simp only [run_bind, run_get, run_pure, hpd]; rfl
      rw [run_bind, hbuf]
      dsimp only
      have H := hd.holds hp (b := (n - 1) / c.dpb) (n := (n - 1) % c.dpb + 1) (by omega) (by omega) hz
      obtain ⟨t1, t2, t3⟩ := trimBlock_spec hc hp hd.ok _ H
      generalize trimBlock c (v.blk (tree c v ci.ino (posOf c ((n - 1) / c.dpb)))) ((n - 1) % c.dpb + 1) = t at *
      have hbm : (n - 1) / c.dpb * c.dpb % c.dpb = 0 := Nat.mul_mod_left _ _
      generalize (n - 1) / c.dpb * c.dpb = base at *
      generalize (n - 1) % c.dpb = r at *
      have hfree : ∀ k, n - t ≤ k → k < n → d.slot k = none := by
        intro k h1 h2
        have := t2 (k - base) (by omega) (by omega)
        rwa [show base + (k - base) = k by omega] at this
      by_cases hlt : t < r + 1
      · rw [if_pos hlt]
        refine ⟨ci1, ?_, m1, s1⟩
        rw [lastUsed_eq d.slot (show n - t ≤ n by omega) hfree (fun _ => by
          have := t3 hlt
          rwa [show base + (r + 1 - t - 1) = n - t - 1 by omega] at this), run_pure]
      · rw [if_neg hlt]
        have hb : (n - (r + 1)) % c.dpb = 0 := by
          rw [show n - (r + 1) = base by omega]; exact hbm
        obtain ⟨ci', e', m', s'⟩ := ih (n - (r + 1)) ci1 (hd.ro m1 s1) (by omega) (by omega) (Or.inl hb)
        refine ⟨ci', ?_, m', s1.trans s'⟩
        rw [e', lastUsed_skip (show n - (r + 1) ≤ n by omega) (fun k h1 h2 => hfree k (by omega) h2)]


theorem newAt_cost {V : Pos → Nat} {b : Nat} (h : freeBlockCount c v < brCost c ⟨ci, v⟩ V 2 (posOf c b)) : ¬ NewAt c v V b := by
  intro hn; rw [brCost_zero hn] at h; omega

theorem size_last (hp : c.PosixOk) {n k : Nat} : c.idxOff k + c.ds = dirSize c n ↔ k + 1 = n := by
  constructor
  · intro h
    have h1 := (dirSize_le hp (n := n) (k := k)).1 (by omega)
    by_contra hne
    have h2 := (dirSize_le hp (n := n) (k := k + 1)).2 (by omega)
    have h3 := idxOff_succ hp k
    have := ds_ge hp
    omega
  · rintro rfl; exact (dirSize_succ hp k).symm

/-- Removing an entry. -/
theorem dirDelete_spec (hc : c.Ok) (hp : c.PosixOk) (h : Wf c v) (hd : MDir c v ci d) (hdt : ci.dirty = true) {k : Nat} (hs : d.slot k ≠ none) :
    (∃ ci' v', dirDelete c k ⟨ci, v⟩ = (.error .enospc, ⟨ci', v'⟩) ∧ DFail c v v' ci ci' d ∧
      ((k + 1 = d.n → lastUsed d.slot k = k) → ¬ NewAt c v (tree c v ci.ino) (k / c.dpb)) ∧
      (freeBlockCount c v < brCost c ⟨ci, v⟩ (tree c v ci.ino) 2 (posOf c (k / c.dpb)) ∨ freeBlockCount c v < c.shrinkNeed)) ∨
    ∃ ci' v' f', dirDelete c k ⟨ci, v⟩ = (.ok (), ⟨ci', v'⟩) ∧ DUpd c v v' ci ci' f' (d.del k) ∧ tot v ≤ tot v' := by
  have hlt : k < d.n := by
    by_contra hx; exact hs (hd.ok.out k (by omega))
  have hk : k < c.direntsMax := Nat.lt_of_lt_of_le hlt hd.ok.max
  unfold dirDelete
  simp only [run_bind, run_get]
  rw [if_neg (by rw [hdt]; simp; exact hk), if_neg (by rw [hd.dir]; simp)]
  by_cases hlast : k + 1 = d.n
  · rw [if_pos (by rw [hd.size]; exact (size_last hp).2 hlast)]
    have hsp : k % c.dpb = 0 ∨ tree c v ci.ino (posOf c ((k - 1) / c.dpb)) ≠ 0 := by
      by_cases hm : k % c.dpb = 0
      · exact Or.inl hm
      · right
        have hdp := dpb_pos hp
        have he : (k - 1) / c.dpb = k / c.dpb := by
          have h1 := Nat.div_add_mod k c.dpb
          have h2 := Nat.mod_lt k hdp
          conv_lhs => rw [← h1]
          rw [Nat.add_sub_assoc (by omega), Nat.mul_add_div hdp, Nat.div_eq_of_lt (show k % c.dpb - 1 < c.dpb by omega), Nat.add_zero]
        rw [he]
        exact fun hz => hs (hd.sparse hc hp hlt hz)
    obtain ⟨ci1, e1, m1, s1⟩ := trimLoop_spec hc hp h k k ci hd (Nat.le_refl _) (by omega) hsp
    have hd1 := hd.ro m1 s1
    rw [run_bind, e1]
    dsimp only
    rw [trimSize_eq hp]
    have hle := lastUsed_le d.slot k
    have hmono : dirSize c (lastUsed d.slot k) ≤ ci1.node.size := by rw [hd1.size]; exact dirSize_mono hp (by omega)
    have hino : ci1.ino = ci.ino := s1.ino
    have hcf : ciFile c v ci1 = ciFile c v ci := by unfold ciFile; rw [s1.node, s1.ino]
    have hE : ∀ {v' ci' f}, Edit c v v' ci1 ci' f → Edit c v v' ci ci' f := by
      intro v' ci' f E
      exact ⟨hino ▸ E.ch, hino ▸ E.file, E.ino.trans hino, hino ▸ E.node, hino ▸ E.oth⟩
    have hsm : dirSize c (lastUsed d.slot k) ≤ c.sizeMax := Nat.le_trans hmono (h.fok hc m1).size
    rcases trunc_file hc h m1 (s1.dirty.trans hdt) (dirSize c (lastUsed d.slot k)) with ⟨g1, g2⟩ | ⟨g0, ci', v', g1, E, m, dt, ht, g2, g3, _⟩ | ⟨g0, ci', v', g1, E, ht, _⟩
    · omega
    · left
      obtain ⟨q1, q2, q3⟩ := g2 hmono
      rw [hcf] at E
      rw [hino] at g3 q3
      refine ⟨ci', v', g1, ⟨hd.keep (hE E), m, dt, ht, g3⟩, fun hu => ?_, Or.inr q1⟩
      have hu := hu hlast
      rw [hu] at q2 q3
      obtain ⟨k, rfl⟩ : ∃ j, k = j + 1 := ⟨k - 1, by rcases k with _ | k; (· simp [dirSize] at q2); (· simp)⟩
      refine q3.not hc ?_
      rw [dirSize_succ hp]
      -- the number of blocks
      have hdp := dpb_pos hp
      have hin := idx_in hp k
      have hds := ds_ge hp
      have hb := dbs_pos hp
      have ht : (c.idxOff k + c.ds + c.blockSize - 1) / c.blockSize = k / c.dpb + 1 := by
        have e1 : c.idxOff k + c.ds + c.blockSize - 1 = c.blockSize * (k / c.dpb + 1) + (k % c.dpb * c.ds + c.ds - 1) := by
          unfold Conf.idxOff; rw [Nat.mul_comm (k / c.dpb), Nat.mul_add]; omega
        rw [e1, Nat.mul_add_div hb, Nat.div_eq_of_lt (show k % c.dpb * c.ds + c.ds - 1 < c.blockSize by omega)]
      rw [ht, Nat.succ_div]
      split <;> omega
    · right
      rw [hcf] at E
      refine ⟨ci', v', _, g1, ⟨hE E, rfl, rfl, ?_, hd.ok.del k⟩, ht⟩
      have := hd.file.truncate hp (lastUsed d.slot k)
      have he : d.del k = ⟨lastUsed d.slot k, fun j => if j < lastUsed d.slot k then d.slot j else none⟩ := by
        apply ADir.ext'
        · show (if k + 1 = d.n then _ else _) = _; rw [if_pos hlast]
        · intro j
          show (if j = k then none else d.slot j) = if j < lastUsed d.slot k then d.slot j else none
          by_cases hj : j = k
          · rw [if_pos hj, if_neg (by omega)]
          · rw [if_neg hj]
            split
            · rfl
            · by_cases hjk : j < k
              · exact lastUsed_out d.slot (by omega) hjk
              · exact hd.ok.out j (by omega)
      rw [he]; exact this
  · rw [if_neg (by rw [hd.size]; exact fun hx => hlast ((size_last hp).1 hx))]
    rcases dirEntryWrite_clear hc hp h hd hdt hs hlast with ⟨ci', v', e, F, g⟩ | ⟨ci', v', f', e, U, t⟩
    · exact Or.inl ⟨ci', v', e, F, fun _ => newAt_cost g, Or.inl g⟩
    · exact Or.inr ⟨ci', v', f', e, U, by omega⟩

/-! ### Creating an entry -/

theorem dirCreate_spec (hc : c.Ok) (hp : c.PosixOk) (h : Wf c v) (hd : MDir c v ci d) (hdt : ci.dirty = true) {i : Nat} {name : List Byte}
    (hn : CStr.Ok name) (hi : c.inodeValid i = true) :
    (∃ e, BadName c (nameOf c name) e ∧ dirCreate c name i ⟨ci, v⟩ = (.error e, ⟨ci, v⟩)) ∨
    (NameOk c (nameOf c name) ∧
      ((∃ k j ci', dirCreate c name i ⟨ci, v⟩ = (.error .eexist, ⟨ci', v⟩) ∧ d.slot k = some (j, nameOf c name)) ∨
       ((∀ k j, d.slot k ≠ some (j, nameOf c name)) ∧
         ((∃ ci', dirCreate c name i ⟨ci, v⟩ = (.error .enospc, ⟨ci', v⟩) ∧ d.n = c.direntsMax ∧ ∀ k, k < d.n → d.slot k ≠ none) ∨
          (∃ ci' v', dirCreate c name i ⟨ci, v⟩ = (.error .enospc, ⟨ci', v'⟩) ∧ Edit c v v' ci ci' (ciFile c v ci) ∧ tot v' = tot v ∧ freeBlockCount c v < 6) ∨
          (∃ k ci' v' f', dirCreate c name i ⟨ci, v⟩ = (.ok (), ⟨ci', v'⟩) ∧ k ≤ d.n ∧ k < c.direntsMax ∧ d.slot k = none ∧
            DUpd c v v' ci ci' f' (d.set k (i, nameOf c name)) ∧ Mnt c v' ci' ∧ tot v' ≤ tot v ∧
            (v.useReserved = false → tot v' = tot v ∨ c.reserved ≤ tot v')))))) := by
  unfold dirCreate
  simp only [run_bind, run_get]
  rw [if_neg (by rw [hdt, hi]; simp), if_neg (by rw [hd.dir]; simp), nameLen_nameOf hn]
  by_cases h0 : (nameOf c name).length = 0
  · left; rw [if_pos h0]; exact ⟨_, Or.inl ⟨h0, rfl⟩, rfl⟩
  rw [if_neg h0]
  by_cases h1 : c.nameMax < (nameOf c name).length
  · left; rw [if_pos h1]; exact ⟨_, Or.inr (Or.inl ⟨h1, rfl⟩), rfl⟩
  rw [if_neg h1]
  by_cases h2 : isDots name (nameOf c name).length = true
  · left; rw [if_pos h2]; exact ⟨_, Or.inr (Or.inr ⟨by omega, by omega, isDots_iff.1 h2, rfl⟩), rfl⟩
  rw [if_neg h2]
  have hs := nameOk_of (c := c) hn (by omega) (by omega) (by simpa using h2)
  refine Or.inr ⟨hs, ?_⟩
  rcases dirLookup_spec hc hp h hd hn with ⟨g, _⟩ | ⟨g, _⟩ | ⟨_, _, r, ci1, e, m1, s1, hr⟩
  · exact absurd g h0
  · exact absurd g h1
  simp only [run_bind, e]
  rcases r with ⟨k, j⟩ | fr
  · left; exact ⟨k, j, ci1, rfl, hr⟩
  right
  obtain ⟨hno, hfr⟩ := hr
  refine ⟨hno, ?_⟩
  rcases fr with _ | k
  · left; exact ⟨ci1, rfl, hfr.1, hfr.2⟩
  right
  have hd1 := hd.ro m1 s1
  have hino : ci1.ino = ci.ino := s1.ino
  have hcf : ciFile c v ci1 = ciFile c v ci := by unfold ciFile; rw [s1.node, s1.ino]
  have hE : ∀ {v' ci' f}, Edit c v v' ci1 ci' f → Edit c v v' ci ci' f := by
    intro v' ci' f E
    exact ⟨hino ▸ E.ch, hino ▸ E.file, E.ino.trans hino, hino ▸ E.node, hino ▸ E.oth⟩
  rcases dirEntryWrite_set hc hp h hd1 (s1.dirty.trans hdt) (k := k) (i := i) hn hfr.2.1 hfr.1 hi hs (fun k' i' hx => absurd hx (hno k' i')) with
    ⟨ci', v', e2, F, _, g6⟩ | ⟨ci', v', f', e2, U, m, _, t1, t2, t3, _⟩
  · left
    have := F.upd.ed
    rw [hcf] at this
    exact ⟨ci', v', e2, hE this, F.tot, g6⟩
  · right
    exact ⟨k, ci', v', f', e2, hfr.1, hfr.2.1, hfr.2.2, ⟨hE U.ed, by rw [U.nlink, s1.node], by rw [U.parent, s1.node], U.file, U.ok⟩, m, t1, t3⟩

end RedFs
