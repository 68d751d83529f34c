import Verif.Lemmas.CoreOp
set_option linter.unusedSimpArgs false
set_option linter.unusedVariables false
namespace RedFs
open M Bitmap Vol

variable {c : Conf} {P : Files → Prop} {v v' : Vol}

/-- `P` does not depend on the contents of regular files. -/
def PData (P : Files → Prop) : Prop :=
  ∀ F i f f', P F → F i = some f → f.mode = modeReg → f'.mode = f.mode → f'.nlink = f.nlink → f'.parent = f.parent → P (F.set i (some f'))

/-- Mounting a regular file. -/
theorem mountFile (hc : c.Ok) (h : Wf c v) (ino : Nat) (br : Bool) :
    (∃ e, Spec.NotReg (files c v) ino e ∧ inodeMount c ino .file br v = (.error e, v)) ∨
    ∃ f ci v', Spec.IsReg (files c v) ino f ∧ inodeMount c ino .file br v = (.ok ci, v') ∧ Fresh c v v' ci ino f ∧
      (br = true → ci.dirty = true) ∧ (br = false → v' = v ∧ ci.dirty = false) := by
  rcases inodeMount_spec hc h ino .file br with ⟨h1, h2⟩ | ⟨f, h1, ⟨e, h2, h3⟩ | ⟨h2, ci, v', h3, h4⟩⟩
  · exact Or.inl ⟨_, Or.inl ⟨rfl, h1⟩, h2⟩
  · left
    have hmode := (h.fs.node ino)
    simp only [typeErr] at h2
    split at h2
    · cases h2
    · next hm =>
      injection h2 with h2; subst h2
      refine ⟨_, Or.inr ⟨rfl, f, h1, ?_⟩, h3⟩
      unfold files at h1; rw [fileOf_eq] at h1
      cases hn : inodeAt c v.blk (curBit c v) ino with
      | none => rw [hn] at h1; cases h1
      | some n =>
        rw [hn] at h1; injection h1 with h1
        rcases (hmode n hn).1 with hx | hx
        · exact absurd (by rw [← h1]; exact hx) hm
        · rw [← h1]; exact hx
  · right
    simp only [typeErr] at h2
    split at h2
    · next hm => exact ⟨f, ci, v', ⟨h1, hm⟩, h3, h4⟩
    · cases h2

/-- Mounting a directory. -/
theorem mountDir (hc : c.Ok) (h : Wf c v) (ino : Nat) (br : Bool) :
    (∃ e, Spec.NotDir (files c v) ino e ∧ inodeMount c ino .dir br v = (.error e, v)) ∨
    ∃ f ci v', Spec.IsDir (files c v) ino f ∧ inodeMount c ino .dir br v = (.ok ci, v') ∧ Fresh c v v' ci ino f ∧
      (br = true → ci.dirty = true) ∧ (br = false → v' = v ∧ ci.dirty = false) := by
  rcases inodeMount_spec hc h ino .dir br with ⟨h1, h2⟩ | ⟨f, h1, ⟨e, h2, h3⟩ | ⟨h2, ci, v', h3, h4⟩⟩
  · exact Or.inl ⟨_, Or.inl ⟨rfl, h1⟩, h2⟩
  · left
    have hmode := (h.fs.node ino)
    simp only [typeErr] at h2
    split at h2
    · cases h2
    · next hm =>
      injection h2 with h2; subst h2
      refine ⟨_, Or.inr ⟨rfl, f, h1, ?_⟩, h3⟩
      unfold files at h1; rw [fileOf_eq] at h1
      cases hn : inodeAt c v.blk (curBit c v) ino with
      | none => rw [hn] at h1; cases h1
      | some n =>
        rw [hn] at h1; injection h1 with h1
        rcases (hmode n hn).1 with hx | hx
        · rw [← h1]; exact hx
        · exact absurd (by rw [← h1]; exact hx) hm
  · right
    simp only [typeErr] at h2
    split at h2
    · next hm => exact ⟨f, ci, v', ⟨h1, hm⟩, h3, h4⟩
    · cases h2

theorem Fresh.file {ci : Cinode} {ino : Nat} {f : AFile} (h : Fresh c v v' ci ino f) (hf : files c v ino = some f) : ciFile c v' ci = f := by
  have := h.ch.wf.file h.mnt
  rw [h.ino, h.same, hf] at this
  injection this with this; exact this.symm

theorem Fresh.tot {ci : Cinode} {ino : Nat} {f : AFile} (h : Fresh c v v' ci ino f) : tot v' = tot v := by
  unfold RedFs.tot; rw [h.free, h.almost]

theorem Edit.files {ci ci' : Cinode} {f : AFile} (h : Edit c v v' ci ci' f) : RedFs.files c v' = Files.set (RedFs.files c v) ci.ino (some f) :=
  Files.set_eq h.file (fun j hj => h.ch.files j hj)

theorem write_clean (ino start len : Nat) (b : Nat → Byte) : Clean (fun F r F' => Spec.Write c ino start len b F r F') :=
  fun F e F' h => h.1

theorem truncate_clean (ino size : Nat) : Clean (fun F r F' => Spec.Truncate c ino size F r F') :=
  fun F e F' h => h.1

theorem dataWrite_efbig {ci : Cinode} (m : Mnt c v ci) (hd : ci.dirty = true) {start len : Nat} (b : Nat → Byte)
    (h : c.sizeMax < start ∨ (start = c.sizeMax ∧ 0 < len)) : dataWrite c start len b ⟨ci, v⟩ = (.error .efbig, ⟨ci, v⟩) := by
  obtain ⟨w, hnb, _⟩ := m.nb
  unfold dataWrite
  simp only [run_bind, run_get]
  rw [if_neg (by simp [hnb, hd]), if_pos h]; rfl

theorem coreFileWriteSub_spec (hc : c.Ok) (hP : PData P) (ino start len : Nat) (b : Nat → Byte) :
    OpSpec c P (coreFileWriteSub c ino start len b) (Spec.Write c ino start len b) (· = ino) := by
  intro v h hro
  unfold coreFileWriteSub
  rw [rwOp_run hro]
  simp only [run_bind]
  rcases mountFile hc h.wf ino true with ⟨e, h1, h2⟩ | ⟨f, ci, v1, hr, h2, fr, hd, _⟩
  · exact ⟨.error e, v, by rw [h2], Eff.refl h, rfl, Or.inl h1⟩
  · rw [h2]
    simp only
    have hd := hd rfl
    have hfile := fr.file hr.1
    have hF1 : files c v1 = files c v := funext fr.same
    have hbase : ∀ v', Ch c v1 v' (· = ci.ino) → P (files c v') → min c.reserved c.allocable ≤ tot v' → Eff c P v v' (· = ino) := by
      intro v' ch hp ht
      have ch1 := fr.ch; rw [← fr.ino] at ch1
      have := ch1.trans hc ch
      exact ⟨h.step hc this hp ht, this.step, this.readOnly, this.kp.reg fun j hj => Or.inl (by rw [hj, fr.ino])⟩
    have hefb : ∀ {v' : Vol}, Inv c P v' → True := fun _ => trivial
    rcases write_file hc fr.ch.wf fr.mnt hd start len (Or.inl fr.pData) b with ⟨g1, g2⟩ | ⟨g0, ci', v', g1, E, _, _, ht, _⟩ | ⟨g0, g1⟩ | ⟨n, ci', v', g1, n0, nl, nm, E, _, _, tl, _, tr, _⟩
    · refine ⟨.error .efbig, v1, by rw [runCi_err g2], hbase v1 (Ch.refl fr.ch.wf) (by rw [hF1]; exact h.now) (by rw [fr.tot]; exact h.rsv), hF1, Or.inr ⟨f, hr, ?_⟩⟩
      rw [if_pos g1]
    · have hF : files c v' = files c v := by
        rw [E.files, hfile, hF1, fr.ino, ← hr.1]; exact Files.set_self _ _
      refine ⟨.error .enospc, v', by rw [runCi_err g1], hbase v' E.ch (by rw [hF]; exact h.now) (by rw [ht, fr.tot]; exact h.rsv), hF, Or.inr ⟨f, hr, ?_⟩⟩
      by_cases hbig : c.sizeMax < start ∨ (start = c.sizeMax ∧ 0 < len)
      · have := dataWrite_efbig fr.mnt hd b hbig
        rw [g1] at this; cases this
      · rw [if_neg hbig]; exact ⟨rfl, g0⟩
    · refine ⟨.ok 0, v1, by rw [runCi_ok g1]; rfl, hbase v1 (Ch.refl fr.ch.wf) (by rw [hF1]; exact h.now) (by rw [fr.tot]; exact h.rsv), f, hr, by omega, by omega, ?_, ?_⟩
      · by_cases hbig : c.sizeMax < start ∨ (start = c.sizeMax ∧ 0 < len)
        · have := dataWrite_efbig fr.mnt hd b hbig
          rw [g1] at this; cases this
        · omega
      · unfold AFile.put; rw [if_pos rfl, hF1, ← hr.1]; exact (Files.set_self _ _).symm
    · have hF : files c v' = Files.set (files c v) ino (some (f.put start n b)) := by
        rw [E.files, hfile, hF1, fr.ino]; unfold AFile.put; rw [if_neg (by omega)]
      refine ⟨.ok n, v', by rw [runCi_ok g1]; rfl, hbase v' E.ch ?_ ?_, f, hr, nl, fun _ => n0, nm, hF⟩
      · rw [hF]
        unfold AFile.put; rw [if_neg (by omega)]
        exact hP _ _ f _ h.now hr.1 hr.2 rfl rfl rfl
      · have hur : v1.useReserved = false := by rw [fr.ch.useReserved]; exact h.idle
        have hr1 := h.rsv
        have := fr.tot
        rcases tr hur with t | t <;> omega

/-- What `CoreFileWrite` does to the blocks of the file, and when it runs out of space. -/
theorem coreFileWriteSub_more (hc : c.Ok) (h : Inv c P v) (hro : v.readOnly = false) {ino : Nat} {f : AFile} (hf : Spec.IsReg (files c v) ino f)
    (start len : Nat) (b : Nat → Byte) {r : Except Err Nat} {v' : Vol} (he : coreFileWriteSub c ino start len b v = (r, v')) :
    (r = .error .enospc ∨ (∃ n, r = .ok n ∧ n < min len (c.sizeMax - start)) → ∀ L : List Pos, L.Nodup → (∀ p ∈ L, PosOk c p) →
      (∀ b, Blks c start (start + min len (c.sizeMax - start)) b ∨ (f.size < start ∧ b = f.size / c.blockSize) → ∀ p, brSet 2 (posOf c b) p → p ∈ L) →
      freeBlockCount c v < L.length) ∧
    (∀ x, x < c.dataBlocks → (tree c v' ino (posOf c x) ≠ 0 ↔ tree c v ino (posOf c x) ≠ 0 ∨ ∃ n, r = .ok n ∧ Blks c start (start + n) x)) ∧
    (r = .error .enospc → tot v' = tot v) := by
  unfold coreFileWriteSub at he
  rw [rwOp_run hro] at he
  simp only [run_bind] at he
  rcases mountFile hc h.wf ino true with ⟨e, h1, _⟩ | ⟨f', ci, v1, hr, h2, fr, hd, _⟩
  · exfalso
    rcases h1 with ⟨_, h1⟩ | ⟨_, f', h1, h2⟩
    · rw [hf.1] at h1; cases h1
    · rw [hf.1] at h1; injection h1 with h1; subst h1
      rw [hf.2] at h2; revert h2; decide
  obtain rfl : f' = f := by have := hr.1; rw [hf.1] at this; injection this with this; exact this.symm
  rw [h2] at he
  simp only at he
  have hd := hd rfl
  have hfb : freeBlockCount c v1 = freeBlockCount c v := by
    unfold freeBlockCount; rw [fr.ch.useReserved, fr.free]
  have htr : ∀ x, x < c.dataBlocks → tree c v1 ino (posOf c x) = tree c v ino (posOf c x) := fun x hx => by rw [← fr.ino]; exact fr.tree _ (posOf_ok hc hx).1
  have hroom : NoRoom c ⟨ci, v1⟩ (tree c v1 ci.ino) start (min len (c.sizeMax - start)) → ∀ L : List Pos, L.Nodup → (∀ p ∈ L, PosOk c p) →
      (∀ b, Blks c start (start + min len (c.sizeMax - start)) b ∨ (f'.size < start ∧ b = f'.size / c.blockSize) → ∀ p, brSet 2 (posOf c b) p → p ∈ L) →
      freeBlockCount c v < L.length := by
    intro hn L h1 h2 h3
    have := hn L h1 h2 (by simp only [fr.size]; exact h3)
    rw [← hfb]
    exact Nat.lt_of_lt_of_le this (costL_le L)
  rcases write_file hc fr.ch.wf fr.mnt hd start len (Or.inl fr.pData) b with ⟨g1, g2⟩ | ⟨g0, ci', v2, g1, E, _, _, ht, hnr, hal⟩ | ⟨g0, g1⟩ |
      ⟨n, ci', v2, g1, n0, nl, nm, E, _, _, tl, _, tr, hnr, hal⟩
  · rw [runCi_err g2] at he
    obtain ⟨rfl, rfl⟩ := Prod.mk.inj he
    refine ⟨fun hx => (by rcases hx with hx | ⟨n, hx, _⟩ <;> cases hx), fun x hx => ?_, fun hx => (by cases hx)⟩
    rw [htr x hx]
    exact ⟨Or.inl, fun hh => hh.elim id (fun ⟨n, hn, _⟩ => by cases hn)⟩
  · rw [runCi_err g1] at he
    obtain ⟨rfl, rfl⟩ := Prod.mk.inj he
    refine ⟨fun _ => hroom hnr, fun x hx => ?_, fun _ => (by rw [ht]; unfold tot; rw [fr.free, fr.almost])⟩
    rw [fr.ino] at hal
    rw [hal x hx, htr x hx]
    exact ⟨Or.inl, fun hh => hh.elim id (fun ⟨n, hn, _⟩ => by cases hn)⟩
  · rw [runCi_ok g1] at he
    obtain ⟨rfl, rfl⟩ := Prod.mk.inj he
    refine ⟨fun hx => ?_, fun x hx => ?_, fun hx => (by cases hx)⟩
    · rcases hx with hx | ⟨n, hx, hlt⟩
      · cases hx
      · injection hx with hx; omega
    · rw [htr x hx]
      refine ⟨Or.inl, fun hh => hh.elim id ?_⟩
      rintro ⟨n, hn, off, k1, k2, _⟩
      injection hn with hn; omega
  · rw [runCi_ok g1] at he
    obtain ⟨rfl, rfl⟩ := Prod.mk.inj he
    refine ⟨fun hx => ?_, fun x hx => ?_, fun hx => (by cases hx)⟩
    · rcases hx with hx | ⟨m, hx, hlt⟩
      · cases hx
      · injection hx with hx; subst hx; exact hroom (hnr hlt)
    · rw [fr.ino] at hal
      rw [hal x hx, htr x hx]
      constructor
      · rintro (hh | hh)
        · exact Or.inl hh
        · exact Or.inr ⟨n, rfl, hh⟩
      · rintro (hh | ⟨m, hm, hh⟩)
        · exact Or.inl hh
        · injection hm with hm; subst hm; exact Or.inr hh

section
variable {b : Bool}
theorem Wf.useRes (h : Wf c v) (b : Bool) : Wf c { v with useReserved := b } :=
  ⟨h.vol.congr rfl rfl rfl rfl rfl rfl rfl rfl (fun hh => h.vol.idle hh) id, h.fs, h.cfs⟩
theorem Step.useRes (h : VolInv c v) (b : Bool) : Step c v { v with useReserved := b } :=
  Step.flags h.ok h.space rfl rfl rfl rfl rfl rfl rfl rfl (fun hh => hh) rfl rfl rfl
theorem Mnt.useRes {ci : Cinode} (h : Mnt c v ci) (b : Bool) : Mnt c { v with useReserved := b } ci := ⟨h.ino, h.nb, h.dirty, h.dir, h.seek⟩
end

/-- `fUseReservedBlocks` is set around an operation. -/
theorem Ch.reserved (hc : c.Ok) {I : Nat → Prop} {b : Bool} (h : Wf c v) (ch : Ch c { v with useReserved := b } v' I) (hi : v.useReserved = false) :
    Ch c v { v' with useReserved := false } I :=
  ⟨ch.wf.useRes false, ((Step.useRes h.vol b).trans hc ch.step).trans hc (Step.useRes ch.wf.vol false), hi.symm, ch.readOnly,
   fun j hj => ch.files j hj, fun ci hci m => (ch.mnt ci hci (m.useRes b)).useRes false, fun j hj p hp => ch.tree j hj p hp⟩

theorem setUseReserved_eq (hc : c.Ok) (b : Bool) (h : v.useReserved = false) (h0 : c.reserved = 0 → b = false) :
    setUseReserved c b v = (.ok (), { v with useReserved := b }) := by
  unfold setUseReserved
  split
  · rfl
  · have : b = false := h0 (by omega)
    rw [this, ← h]; rfl

theorem coreFileTruncateSub_spec (hc : c.Ok) (hP : PData P) (ino size : Nat) :
    OpSpec c P (coreFileTruncateSub c ino size) (Spec.Truncate c ino size) (· = ino) := by
  intro v h hro
  unfold coreFileTruncateSub
  rw [rwOp_run hro]
  simp only [run_bind]
  rcases mountFile hc h.wf ino true with ⟨e, h1, h2⟩ | ⟨f, ci, v1, hr, h2, fr, hd, _⟩
  · exact ⟨.error e, v, by rw [h2], Eff.refl h, rfl, Or.inl h1⟩
  · rw [h2]
    simp only
    have hd := hd rfl
    have hur1 : v1.useReserved = false := by rw [fr.ch.useReserved]; exact h.idle
    obtain ⟨b, hb⟩ : ∃ b, setUseReserved c (decide (size < ci.node.size)) v1 = (.ok (), { v1 with useReserved := b }) := by
      unfold setUseReserved
      split
      · exact ⟨_, rfl⟩
      · exact ⟨false, by rw [← hur1]; rfl⟩
    have hset : ∀ v' : Vol, v'.useReserved = b → setUseReserved c false v' = (.ok (), { v' with useReserved := false }) := by
      intro v' hv'
      unfold setUseReserved
      split
      · rfl
      · next hh =>
        unfold setUseReserved at hb; rw [if_neg hh] at hb
        have : v1 = { v1 with useReserved := b } := (Prod.mk.inj hb).2
        have hbf : b = false := by rw [this] at hur1; exact hur1
        rw [hbf] at hv'; rw [← hv']; rfl
    have hfile : ciFile c { v1 with useReserved := b } ci = f := fr.file hr.1
    have hF1 : files c { v1 with useReserved := b } = files c v := funext fr.same
    have hbase : ∀ v', Ch c { v1 with useReserved := b } v' (· = ci.ino) → P (files c v') → min c.reserved c.allocable ≤ tot v' →
        Eff c P v { v' with useReserved := false } (· = ino) := by
      intro v' ch hp ht
      have ch1 := fr.ch; rw [← fr.ino] at ch1
      have := ch1.trans hc (ch.reserved hc fr.ch.wf hur1)
      exact ⟨h.step hc this hp ht, this.step, this.readOnly, this.kp.reg fun j hj => Or.inl (by rw [hj, fr.ino])⟩
    have htot : tot { v1 with useReserved := b } = tot v := fr.tot
    rw [hb]
    simp only
    rcases trunc_file hc (fr.ch.wf.useRes b) (fr.mnt.useRes b) hd size with ⟨g1, g2⟩ | ⟨g0, ci', v', g1, E, _, _, ht, _⟩ | ⟨g0, ci', v', g1, E, ht, _⟩
    · rw [onCi_eq g2]; simp only
      rw [hset _ rfl]
      refine ⟨.error .efbig, _, rfl, hbase _ (Ch.refl (fr.ch.wf.useRes b)) (by rw [hF1]; exact h.now) (by rw [htot]; exact h.rsv), hF1, Or.inr ⟨f, hr, ?_⟩⟩
      rw [if_pos g1]
    · have hF : files c v' = files c v := by
        rw [E.files, hfile, hF1, fr.ino, ← hr.1]; exact Files.set_self _ _
      rw [onCi_eq g1]; simp only
      rw [hset _ E.ch.useReserved]
      refine ⟨.error .enospc, _, rfl, hbase v' E.ch (by rw [hF]; exact h.now) (by rw [ht, htot]; exact h.rsv), hF, Or.inr ⟨f, hr, ?_⟩⟩
      rw [if_neg (by omega)]
    · have hF : files c v' = Files.set (files c v) ino (some (f.truncate size)) := by
        rw [E.files, hfile, hF1, fr.ino]
      rw [onCi_eq g1]; simp only
      rw [hset _ E.ch.useReserved]
      refine ⟨.ok (), _, rfl, hbase v' E.ch ?_ ?_, f, hr, g0, hF⟩
      · rw [hF]; exact hP _ _ f _ h.now hr.1 hr.2 rfl rfl rfl
      · have := h.rsv; omega

/-- What `CoreFileTruncate` does to the blocks of the file, and when extending the file runs out of space. -/
theorem coreFileTruncateSub_more (hc : c.Ok) (h : Inv c P v) (hro : v.readOnly = false) {ino : Nat} {f : AFile} (hf : Spec.IsReg (files c v) ino f)
    (size : Nat) {r : Except Err Unit} {v' : Vol} (he : coreFileTruncateSub c ino size v = (r, v')) :
    (r = .error .enospc → f.size < size → freeBlockCount c v < 3) ∧
    (∀ x, x < c.dataBlocks → (tree c v' ino (posOf c x) ≠ 0 ↔ tree c v ino (posOf c x) ≠ 0 ∧ (r = .ok () → x * c.blockSize < size))) ∧
    (r = .error .enospc → tot v' = tot v) := by
  unfold coreFileTruncateSub at he
  rw [rwOp_run hro] at he
  simp only [run_bind] at he
  rcases mountFile hc h.wf ino true with ⟨e, h1, _⟩ | ⟨f', ci, v1, hr, h2, fr, hd, _⟩
  · exfalso
    rcases h1 with ⟨_, h1⟩ | ⟨_, f', h1, h2⟩
    · rw [hf.1] at h1; cases h1
    · rw [hf.1] at h1; injection h1 with h1; subst h1
      rw [hf.2] at h2; revert h2; decide
  obtain rfl : f' = f := by have := hr.1; rw [hf.1] at this; injection this with this; exact this.symm
  rw [h2] at he
  simp only at he
  have hd := hd rfl
  have hur1 : v1.useReserved = false := by rw [fr.ch.useReserved]; exact h.idle
  obtain ⟨b, hb, hb1⟩ : ∃ b, setUseReserved c (decide (size < ci.node.size)) v1 = (.ok (), { v1 with useReserved := b }) ∧
      (ci.node.size < size → b = false) := by
    unfold setUseReserved
    split
    · exact ⟨_, rfl, fun hx => decide_eq_false (by omega)⟩
    · exact ⟨false, by rw [← hur1]; rfl, fun _ => rfl⟩
  have hset : ∀ v' : Vol, ∃ b', setUseReserved c false v' = (.ok (), { v' with useReserved := b' }) := by
    intro v'; unfold setUseReserved; split
    · exact ⟨_, rfl⟩
    · exact ⟨v'.useReserved, rfl⟩
  have htr : ∀ x, x < c.dataBlocks → tree c v1 ino (posOf c x) = tree c v ino (posOf c x) := fun x hx => by rw [← fr.ino]; exact fr.tree _ (posOf_ok hc hx).1
  rw [hb] at he
  simp only at he
  rcases trunc_file hc (fr.ch.wf.useRes b) (fr.mnt.useRes b) hd size with ⟨g1, g2⟩ | ⟨g0, ci', v2, g1, E, _, _, ht, _, _, hsh, hal⟩ | ⟨g0, ci', v2, g1, E, ht, hal⟩
  · rw [onCi_eq g2] at he; simp only at he
    obtain ⟨b', hb'⟩ := hset { v1 with useReserved := b }
    rw [hb'] at he
    obtain ⟨rfl, rfl⟩ := Prod.mk.inj he
    refine ⟨fun hx => (by cases hx), fun x hx => ?_, fun hx => (by cases hx)⟩
    show (tree c v1 ino (posOf c x) ≠ 0 ↔ _)
    rw [htr x hx]
    exact ⟨fun hh => ⟨hh, fun hx => by cases hx⟩, fun hh => hh.1⟩
  · rw [onCi_eq g1] at he; simp only at he
    obtain ⟨b', hb'⟩ := hset v2
    rw [hb'] at he
    obtain ⟨rfl, rfl⟩ := Prod.mk.inj he
    refine ⟨fun _ hx => ?_, fun x hx => ?_, fun _ => (by show tot v2 = _; rw [ht]; show tot v1 = _; unfold tot; rw [fr.free, fr.almost])⟩
    · rw [← fr.size] at hx
      have h3 := hsh hx
      unfold Short at h3
      rw [brCost_eq] at h3
      have h4 := costL_le (c := c) (s := ⟨ci, { v1 with useReserved := b }⟩) (V := tree c v1 ci.ino) (pathL (posOf c (ci.node.size / c.blockSize)))
      have h5 : (pathL (posOf c (ci.node.size / c.blockSize))).length ≤ 3 := by
        unfold pathL
        generalize posOf c (ci.node.size / c.blockSize) = q
        rcases q with e | ⟨e | ⟨e, d⟩, k⟩ <;> simp [anc]
      have h6 : freeBlockCount c { v1 with useReserved := b } = freeBlockCount c v := by
        rw [hb1 hx]; unfold freeBlockCount; rw [h.idle, ← fr.free]; rfl
      have h3' : freeBlockCount c { v1 with useReserved := b } < costL c ⟨ci, { v1 with useReserved := b }⟩ (tree c v1 ci.ino) (pathL (posOf c (ci.node.size / c.blockSize))) := h3
      omega
    · rw [fr.ino] at hal
      have := hal x hx
      show (tree c v2 ino (posOf c x) ≠ 0 ↔ _)
      rw [this]
      show (tree c v1 ino (posOf c x) ≠ 0 ↔ _)
      rw [htr x hx]
      exact ⟨fun hh => ⟨hh, fun hx => by cases hx⟩, fun hh => hh.1⟩
  · rw [onCi_eq g1] at he; simp only at he
    obtain ⟨b', hb'⟩ := hset v2
    rw [hb'] at he
    obtain ⟨rfl, rfl⟩ := Prod.mk.inj he
    refine ⟨fun hx => (by cases hx), fun x hx => ?_, fun hx => (by cases hx)⟩
    rw [fr.ino] at hal
    have := hal x hx
    show (tree c v2 ino (posOf c x) ≠ 0 ↔ _)
    rw [this]
    show (tree c v1 ino (posOf c x) ≠ 0 ∧ _ ↔ _)
    rw [htr x hx]
    exact ⟨fun hh => ⟨hh.1, fun _ => hh.2⟩, fun hh => ⟨hh.1, hh.2 rfl⟩⟩

/-- Reading. -/
theorem coreFileRead_spec (hc : c.Ok) (h : Inv c P v) (ino start len : Nat) :
    ∃ r v', coreFileRead c ino start len v = (r, v') ∧ Eff c P v v' ∧ files c v' = files c v ∧ Spec.Read ino start len (files c v) r ∧
      (c.atime = false ∨ v.readOnly = true → v' = v) := by
  unfold coreFileRead
  rw [whenMounted_run h.mounted]
  simp only [run_bind, run_get]
  rcases mountFile hc h.wf ino (c.atime && decide (0 < len) && !v.readOnly) with ⟨e, h1, h2⟩ | ⟨f, ci, v1, hr, h2, fr, hd, hnb⟩
  · exact ⟨.error e, v, by rw [h2], Eff.refl h, rfl, h1, fun _ => rfl⟩
  · rw [h2]
    simp only
    obtain ⟨ci', e, _⟩ := read_file hc fr.ch.wf fr.mnt start len
    have hF1 : files c v1 = files c v := funext fr.same
    refine ⟨.ok (f.read start len), v1, ?_, ⟨h.step hc fr.ch (by rw [hF1]; exact h.now) (by rw [fr.tot]; exact h.rsv), fr.ch.step, fr.ch.readOnly, (fr.kp (D := fun _ => False)).reg fun _ hh => hh.elim⟩, hF1, ⟨f, hr, rfl⟩, ?_⟩
    · rw [runCi_ok e, fr.file hr.1]; rfl
    · intro hh
      refine (hnb ?_).1
      rcases hh with hh | hh <;> simp [hh]

/-- `red_stat`. -/
theorem coreStat_spec (hc : c.Ok) (h : Inv c P v) (ino : Nat) :
    (files c v ino = none ∧ coreStat c ino v = (.error .ebadf, v)) ∨
    ∃ f st, files c v ino = some f ∧ coreStat c ino v = (.ok st, v) ∧ st.ino = ino ∧ st.mode = f.mode ∧ st.nlink = f.nlink ∧ st.size = f.size ∧
      st.blocks = if c.inodeBlocks then countIn (fun b => decide (tree c v ino (posOf c b) ≠ 0)) 0 c.dataBlocks else 0 := by
  unfold coreStat
  rw [whenMounted_run h.mounted]
  simp only [run_bind]
  rcases inodeMount_spec hc h.wf ino .either false with ⟨h1, h2⟩ | ⟨f, h1, ⟨e, h2, h3⟩ | ⟨h2, ci, v', h3, fr, h5, h6⟩⟩
  · exact Or.inl ⟨h1, by rw [h2]⟩
  · cases h2
  · right
    obtain ⟨hv, _⟩ := h6 rfl
    subst hv
    refine ⟨f, _, h1, by rw [h3]; rfl, rfl, fr.mode, fr.nlink, fr.size, ?_⟩
    simp only
    by_cases hib : c.inodeBlocks = true
    · rw [if_pos hib, if_pos hib]
      have := (h.wf.fs.node _ _ (h.wf.at_mnt fr.mnt)).2.2.2 hib
      rw [fr.ino] at this; exact this
    · rw [if_neg hib, if_neg hib]

end RedFs
