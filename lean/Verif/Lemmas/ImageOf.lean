import Verif.Lemmas.Image
/-!
There are images: bytes for each block (C58).
-/
namespace RedFs.Image
open RedFs Buffer Swap Bitmap
variable {l : Layout} {b : Build}

/-- There is a node with given numbers. -/
theorem fill (big : Bool) (val : Nat → Nat) (f0 : Bytes) : ∀ {L : List (Nat × Nat)} {a z : Nat}, Sorted a L z →
    ∃ f : Bytes, (∀ x ∈ L, number big f x.1 x.2 = val x.1 % 256 ^ x.2) ∧ ∀ i, z ≤ i → f i = f0 i
  | [], _, _, _ => ⟨f0, (fun x hx => nomatch hx), fun _ _ => rfl⟩
  | x :: L, a, z, h => by
    obtain ⟨f, h1, h2⟩ := fill big val f0 h.2
    have hz := Sorted.le h x (by simp)
    refine ⟨st x.2 big f x.1 (BitVec.ofNat (8 * x.2) (val x.1)), fun y hy => ?_, fun i hi => ?_⟩
    · rcases List.mem_cons.1 hy with rfl | hy
      · rw [number_st _ _ _ _ _ (Nat.le_refl _), BitVec.toNat_ofNat, Nat.pow_mul]
      · rw [number_st_other _ _ _ _ _ _ _ _ (Or.inr (Sorted.le h.2 y hy).1)]; exact h1 y hy
    · rw [st_other _ _ _ _ _ _ (Or.inr (by omega))]; exact h2 i hi

theorem holds_inode (hl : l.Ok) (hlink : l.link = true) (n : InodeNode) : ∃ f, HoldsInode l b f n := by
  obtain ⟨f, h1, _⟩ := fill b.big (fun a => if a = 16 then n.size else if a = l.oMode then n.mode else if a < l.oMode then n.blocks else
    if a = l.oMode + 2 then n.nlink else if a < l.oEntries then n.pinode else n.entries ((a - l.oEntries) / 4)) (fun _ => 0) (fields_sorted l hl .inode)
  obtain ⟨f1, f2, f3, f4, f5⟩ := inode_fields l hlink
  have o1 : 24 ≤ l.oMode := by unfold Layout.oMode Layout.oTimes; omega
  have o2 : l.inodeBlocks = true → 28 ≤ l.oMode := by intro h; unfold Layout.oMode Layout.oTimes; rw [h]; simp
  have o3 : l.oPInode = l.oMode + 4 := rfl
  have o4 : l.posix = true → l.oEntries = l.oMode + 8 := by intro h; unfold Layout.oEntries; rw [h, o3]; simp
  have o5 : l.oMode + 4 ≤ l.oEntries := by unfold Layout.oEntries; rw [o3]; omega
  refine ⟨f, ?_, fun h => ?_, ?_, fun h => ?_, fun h => ?_, fun e he => ?_⟩
  · exact (h1 _ f1).trans (by simp)
  · have := o2 h
    exact (h1 _ (f2 h)).trans (by simp only; rw [if_neg (by omega), if_neg (by omega), if_pos (by omega)])
  · exact (h1 _ f3).trans (by simp only; rw [if_neg (by omega), if_pos trivial])
  · exact (h1 _ (f4 h).1).trans (by simp only; rw [if_neg (by omega), if_neg (by omega), if_neg (by omega), if_pos trivial])
  · have := o4 h
    exact (h1 _ (f4 h).2).trans (by simp only; rw [if_neg (by omega), if_neg (by omega), if_neg (by omega), if_neg (by omega), if_pos (by omega)])
  · exact (h1 _ (f5 e he)).trans (by
      simp only
      rw [if_neg (by omega), if_neg (by omega), if_neg (by omega), if_neg (by omega), if_neg (by omega), show (l.oEntries + 4 * e - l.oEntries) / 4 = e by omega])

theorem holds_ptrs (hl : l.Ok) (es : Nat → Nat) : ∃ f, HoldsPtrs l b f es := by
  obtain ⟨f, h1, _⟩ := fill b.big (fun a => es ((a - 20) / 4)) (fun _ => 0) (fields_sorted l hl .indir)
  exact ⟨f, fun k hk => (h1 _ (List.mem_cons_of_mem _ (entries_mem hk))).trans (by simp only; rw [show (20 + 4 * k - 20) / 4 = k by omega])⟩

theorem holds_metaroot (m : Metaroot) : ∃ f, HoldsMetaroot l b f m := by
  have hs : Sorted 20 (metarootFields l) (l.oNext + 4) := by
    unfold metarootFields Layout.oNext
    cases l.posix <;> simp [Sorted]
  obtain ⟨f, h1, h2⟩ := fill b.big (fun a => if a = 20 then m.freeBlocks else if a = l.oNext then m.allocNext else m.freeInodes) (fun i => m.entries (i - (l.oNext + 4))) hs
  have o : 24 ≤ l.oNext := by unfold Layout.oNext; omega
  refine ⟨f, ?_, fun h => ?_, ?_, fun k hk => ?_⟩
  · exact (h1 (20, 4) (by unfold metarootFields; split <;> simp)).trans (by simp)
  · exact (h1 (24, 4) (by unfold metarootFields; rw [if_pos h]; simp)).trans (by
      have : l.oNext = 28 := by unfold Layout.oNext; rw [h]; rfl
      simp only; rw [if_neg (by omega), if_neg (by omega)])
  · exact (h1 (l.oNext, 4) (by unfold metarootFields Layout.oNext; cases l.posix <;> simp)).trans (by simp only; rw [if_neg (by omega), if_pos trivial])
  · rw [h2 _ (by omega), Nat.add_sub_cancel_left]

theorem written_exists (hl : l.Ok) (hlink : l.link = true) (top : Nat) (x : Blk) : ∃ D, Written l b (top + 1) x D := by
  cases x with
  | data d => exact ⟨d, fun _ _ => rfl⟩
  | inode n => obtain ⟨f, h⟩ := holds_inode hl hlink n; exact ⟨_, f, 0, h, Nat.succ_pos _, rfl⟩
  | indir o es => obtain ⟨f, h⟩ := holds_ptrs hl es; exact ⟨_, f, 0, h, Nat.succ_pos _, rfl⟩
  | dindir o es => obtain ⟨f, h⟩ := holds_ptrs hl es; exact ⟨_, f, 0, h, Nat.succ_pos _, rfl⟩
  | imap bits => exact ⟨_, fun k => bits (k - 16), 0, fun k _ => by show bits (16 + k - 16) = _; rw [Nat.add_sub_cancel_left], Nat.succ_pos _, rfl⟩
  | _ => exact ⟨fun _ => 0, trivial⟩

/-- A device whose metaroots are both valid has an image. -/
theorem image_exists (hl : l.Ok) (hlink : l.link = true) (c : Conf) {D : Nat → Blk} (m : Metaroot)
    (h1 : ∀ x, x = 1 ∨ x = 2 → ∃ m, D x = .metaroot m) : ∃ img, IsImage l b c D m img := by
  have key : ∀ x, ∃ B, ((x = 1 ∨ x = 2) → WrittenRoot l b (D x) B) ∧ (¬ (x = 1 ∨ x = 2) → Written l b (m.seq + 1) (D x) B) := by
    intro x
    by_cases hx : x = 1 ∨ x = 2
    · obtain ⟨m', e⟩ := h1 x hx
      obtain ⟨f, h⟩ := holds_metaroot (l := l) (b := b) m'
      refine ⟨finalizeMetaroot l b (BitVec.ofNat 64 m'.seq) f, fun _ => ?_, fun h => absurd hx h⟩
      rw [e]; exact ⟨f, h, rfl⟩
    · obtain ⟨B, h⟩ := written_exists (b := b) hl hlink m.seq (D x)
      exact ⟨B, fun h => absurd h hx, fun _ => h⟩
  obtain ⟨img, h⟩ := Classical.axiomOfChoice key
  refine ⟨img, fun x hx => (h x).2 ?_, fun x hx => (h x).1 hx⟩
  have := Conf.Ok.table_ge c
  rcases hx with ⟨_, k, _, rfl⟩ | ⟨⟨h, _⟩, _⟩
  · unfold nodeBlk Conf.imapStart; omega
  · omega
end RedFs.Image
