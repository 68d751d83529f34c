import Verif.Lemmas.Graph
import Verif.Lemmas.DirRead
import Verif.Lemmas.CoreFile
import Verif.Spec.NsApi
import Verif.Model.CoreDir
set_option linter.unusedSimpArgs false
set_option linter.unusedVariables false
namespace RedFs
open M Bitmap Vol Str

variable {c : Conf} {v v' : Vol} {ci ci' : Cinode} {F F' : Files}

theorem modes_ne : modeDir ≠ modeReg := by decide

theorem entOf_dir {p : Nat} {f : AFile} (h : Spec.IsDir F p f) (k : Nat) : entOf c F p k = entAt c f k := by
  unfold entOf; rw [h.1]; simp only; rw [if_pos h.2]

theorem entOf_file (hc : c.Ok) (hp : c.PosixOk) {p : Nat} {f : AFile} {d : ADir} (h : F p = some f) (hf : DirFile c f d) (ok : DirOk c d) (k : Nat) :
    entOf c F p k = d.slot k := by
  rw [entOf_dir ⟨h, hf.mode⟩, hf.ent hc hp ok]

theorem entOf_reg {p : Nat} {f : AFile} (h : Spec.IsReg F p f) (k : Nat) : entOf c F p k = none := by
  unfold entOf; rw [h.1]; simp only; rw [if_neg (by rw [h.2]; exact fun e => modes_ne e.symm)]

theorem entOf_none {p : Nat} (h : F p = none) (k : Nat) : entOf c F p k = none := by
  unfold entOf; rw [h]

theorem entOf_congr {p : Nat} (h : F' p = F p) (k : Nat) : entOf c F' p k = entOf c F p k := by
  unfold entOf; rw [h]

theorem slot_some {p k i : Nat} : (graphOf c F).slot p k = some i ↔ ∃ s, entOf c F p k = some (i, s) := by
  show (entOf c F p k).map _ = _ ↔ _
  cases entOf c F p k with
  | none => simp
  | some e => obtain ⟨j, s⟩ := e; simp
theorem slot_none {p k : Nat} : (graphOf c F).slot p k = none ↔ entOf c F p k = none := by
  show (entOf c F p k).map _ = _ ↔ _
  simp

theorem node_of {i : Nat} {f : AFile} (h : F i = some f) : (graphOf c F).node i = some ⟨decide (f.mode = modeDir), f.nlink, f.parent⟩ := by
  show (F i).map _ = _; rw [h]; rfl
theorem node_none {i : Nat} (h : F i = none) : (graphOf c F).node i = none := by
  show (F i).map _ = _; rw [h]; rfl

/-- The namespace does not depend on the contents of regular files. -/
theorem ns_data : PData (NsOk c) := by
  intro F i f f' h hi hm h1 h2 h3
  have hent : ∀ p k, entOf c (F.set i (some f')) p k = entOf c F p k := by
    intro p k
    by_cases e : p = i
    · subst e
      rw [entOf_reg (f := f') ⟨Files.set_same _ _ _, h1.trans hm⟩, entOf_reg ⟨hi, hm⟩]
    · exact entOf_congr (Files.set_other _ _ e) k
  refine ⟨?_, ?_⟩
  · intro p g hg
    by_cases e : p = i
    · subst e
      have := hg.1; rw [Files.set_same] at this; injection this with this
      exact absurd (hg.2.symm.trans (by rw [← this, h1, hm])) modes_ne
    · exact h.dirs p g ⟨by have := hg.1; rwa [Files.set_other _ _ e] at this, hg.2⟩
  · have : graphOf c (F.set i (some f')) = graphOf c F := by
      unfold graphOf
      congr 1
      · funext j
        by_cases e : j = i
        · subst e; rw [Files.set_same, hi]; simp only [Option.map_some]; rw [h1, h2, h3]
        · rw [Files.set_other _ _ e]
      · funext p k; rw [hent]
    rw [this]; exact h.graph

/-- The mounted directory. -/
theorem NsOk.mdir (h : NsOk c (files c v)) {p : Nat} {f : AFile} (hd : Spec.IsDir (files c v) p f) (fr : Fresh c v v' ci p f) : MDir c v' ci (dirOf c f) := by
  have hfile := fr.file hd.1
  obtain ⟨h1, h2⟩ := h.dirs p f hd
  exact ⟨fr.mnt, by rw [hfile]; exact h1, h2⟩

theorem NsOk.ent (hc : c.Ok) (hp : c.PosixOk) (h : NsOk c F) {p : Nat} {f : AFile} (hd : Spec.IsDir F p f) (k : Nat) : entOf c F p k = (dirOf c f).slot k := by
  rw [entOf_dir hd]; rfl

theorem MDir.after {d : ADir} (h : MDir c v ci d) (B : Branched c v v' ci ci') (hw : Wf c v) : MDir c v' ci' d := by
  have hf : ciFile c v' ci' = ciFile c v ci := by
    have h1 := B.ch.wf.file B.mnt
    have h2 := hw.file h.mnt
    rw [B.ino, B.same, h2] at h1; injection h1 with h1; exact h1.symm
  exact ⟨B.mnt, by rw [hf]; exact h.file, h.ok⟩

/-- A mounted directory stays when other inodes change. -/
theorem MDir.frame {I : Nat → Prop} {d : ADir} (h : MDir c v ci d) (hw : Wf c v) (ch : Ch c v v' I) (hi : ¬ I ci.ino) : MDir c v' ci d := by
  have m := ch.mnt ci hi h.mnt
  have hf : ciFile c v' ci = ciFile c v ci := by
    have h1 := ch.wf.file m
    have h2 := hw.file h.mnt
    rw [ch.files _ hi, h2] at h1; injection h1 with h1; exact h1.symm
  exact ⟨m, by rw [hf]; exact h.file, h.ok⟩

theorem Branched.tot {c : Conf} {v v' : Vol} {ci ci' : Cinode} (B : Branched c v v' ci ci') : tot v' = tot v := by
  unfold RedFs.tot; rw [B.free, B.almost]

theorem root_live (h : GraphOk (graphOf c F)) : ∃ f, Spec.IsDir F 2 f ∧ f.nlink = 1 ∧ f.parent = 0 := by
  have h1 := h.root
  change (F 2).map _ = _ at h1
  cases hf : F 2 with
  | none => rw [hf] at h1; cases h1
  | some f =>
    rw [hf] at h1
    simp only [Option.map_some, Option.some.injEq, Node.mk.injEq] at h1
    exact ⟨f, ⟨hf, of_decide_eq_true h1.1⟩, h1.2.1, h1.2.2⟩

theorem files_valid (hc : c.Ok) (h : Wf c v) {i : Nat} (hi : (files c v i).isSome = true) : c.inodeValid i = true := by
  rw [live_iff h, Bool.and_eq_true] at hi; exact hi.1

theorem files_mode (h : Wf c v) {i : Nat} {f : AFile} (hi : files c v i = some f) : f.mode = modeReg ∨ f.mode = modeDir := by
  obtain ⟨w, n, _, _, _, _, h5, h6, _⟩ := h.slot hi
  rw [← h6]; exact (h.fs.node i n h5).1

/-- The effect of changing the entries of one directory. -/
theorem graph_set (hc : c.Ok) (hp : c.PosixOk) {p : Nat} {f f' : AFile} {d' : ADir} (hf : Spec.IsDir F p f) (hd' : DirFile c f' d') (ok : DirOk c d')
    (hl : f'.nlink = f.nlink) (hpar : f'.parent = f.parent) (hF : F' = Files.set F p (some f')) :
    (∀ j, (graphOf c F').node j = (graphOf c F).node j) ∧ (∀ k, entOf c F' p k = d'.slot k) ∧ (∀ q, q ≠ p → ∀ k, entOf c F' q k = entOf c F q k) := by
  subst hF
  refine ⟨fun j => ?_, fun k => entOf_file hc hp (Files.set_same _ _ _) hd' ok k, fun q hq k => entOf_congr (Files.set_other _ _ hq) k⟩
  by_cases e : j = p
  · subst e
    rw [node_of (Files.set_same _ _ _), node_of hf.1, hd'.mode, hf.2, hl, hpar]
  · show (Files.set F p (some f') j).map _ = (F j).map _
    rw [Files.set_other _ _ e]

end RedFs
