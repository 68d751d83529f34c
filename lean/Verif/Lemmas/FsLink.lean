import Verif.Lemmas.FsFree
import Verif.Model.Link
set_option linter.unusedSimpArgs false
set_option linter.unusedVariables false
namespace RedFs
open M Bitmap Vol

variable {c : Conf} {v v' v0 v1 v2 : Vol} {ci ci' : Cinode}

theorem runCi_ok {α : Type} {m : DM α} {a : α} (h : m ⟨ci, v⟩ = (.ok a, ⟨ci', v'⟩)) : runCi ci m v = (.ok (a, ci'), v') := by
  unfold runCi; rw [h]
theorem runCi_err {α : Type} {m : DM α} {e : Err} (h : m ⟨ci, v⟩ = (.error e, ⟨ci', v'⟩)) : runCi ci m v = (.error e, v') := by
  unfold runCi; rw [h]
theorem onCi_eq {α : Type} {m : DM α} {r : Except Err α} (h : m ⟨ci, v⟩ = (r, ⟨ci', v'⟩)) : onCi ci m v = (.ok (r, ci'), v') := by
  unfold onCi; rw [h]

/-- Changing the link count or parent of a mounted inode. -/
theorem setMeta_file (hc : c.Ok) (h : Wf c v) (m : Mnt c v ci) (hd : ci.dirty = true) (f : InodeNode → InodeNode)
    (he : (f ci.node).entries = ci.node.entries) (hs : (f ci.node).size = ci.node.size) (hm : (f ci.node).mode = ci.node.mode)
    (hb : (f ci.node).blocks = ci.node.blocks) :
    ∃ ci' v', setNode f ⟨ci, v⟩ = (.ok (), ⟨ci', v'⟩) ∧
      Edit c v v' ci ci' { ciFile c v ci with nlink := (f ci.node).nlink, parent := (f ci.node).pinode } ∧ Mnt c v' ci' ∧ ci'.dirty = true ∧
      ci'.node = f ci.node ∧ ci'.pData = ci.pData ∧ v'.work.freeBlocks = v.work.freeBlocks ∧ v'.almostFree = v.almostFree ∧
      v'.work.freeInodes = v.work.freeInodes ∧ (∀ p, PosOk c p → tree c v' ci.ino p = tree c v ci.ino p) := by
  have fk := h.fok hc m
  have ns := fk.inv.setNode hc hd (f ci.node) he
  obtain ⟨nb, hnb⟩ := fk.inv.nb_isSome
  have hv : ((DS.setNode ⟨ci, v⟩ (f ci.node)).v) = v.write nb (.inode (f ci.node)) := by
    have : ci.nodeBuf = some nb := hnb
    simp [DS.setNode, this, hd]
  refine ⟨{ ci with node := f ci.node }, v.write nb (.inode (f ci.node)), (by rw [← hv]; rfl), ?_⟩
  have hds : DS.setNode ⟨ci, v⟩ (f ci.node) = ⟨{ ci with node := f ci.node }, v.write nb (.inode (f ci.node))⟩ := by
    rw [← hv]; rfl
  rw [hds] at ns
  have ok : FOk c (Others c v ci.ino) ⟨{ ci with node := f ci.node }, v.write nb (.inode (f ci.node))⟩ (tree c v ci.ino) := by
    refine ⟨ns.inv, ?_, ?_, ?_, ns.dat hc fk.dat⟩
    · intro hib; show (f ci.node).blocks = _; rw [hb]; exact fk.cnt hib
    · show Bnd c _ (f ci.node).size; rw [hs]; exact fk.bnd
    · show (f ci.node).size ≤ _; rw [hs]; exact fk.size
  obtain ⟨ed, hmnt⟩ := h.edit hc m hd (ci' := { ci with node := f ci.node }) ok ns.frn
    (f := { ciFile c v ci with nlink := (f ci.node).nlink, parent := (f ci.node).pinode }) hm hm.symm rfl rfl hs.symm (by
      intro off
      show (if off < ci.node.size then _ else 0) = if off < (f ci.node).size then _ else 0
      rw [hs]
      split
      · next ho =>
        have hsz : ci.node.size ≤ c.sizeMax := fk.size
        have hx := ns.byteAt hc (off := off) (by omega)
        exact hx.symm
      · rfl)
  exact ⟨ed, hmnt.1 (m.seek.node _), hd, rfl, rfl, by rw [write_work], rfl, by rw [write_work], hmnt.2⟩

/-- `RedInodeLinkDec` never fails. -/
theorem inodeLinkDec_spec (hc : c.Ok) (h : Wf c v) (m : Mnt c v ci) {f : AFile} (hf : files c v ci.ino = some f) :
    ∃ v', inodeLinkDec c ci v = (.ok (), v') ∧ Ch c v v' (· = ci.ino) ∧
      files c v' ci.ino = (if 1 < f.nlink then some { f with nlink := f.nlink - 1 } else none) ∧ tot v ≤ tot v' ∧ ∀ D, Kp c v v' D := by
  have hfe : f = ciFile c v ci := by have := h.file m; rw [hf] at this; injection this
  obtain ⟨w, hnb, _⟩ := m.nb
  have hnl : f.nlink = ci.node.nlink := by rw [hfe]; rfl
  unfold inodeLinkDec
  rw [if_neg (by rw [hnb]; simp), hnl]
  by_cases h1 : 1 < ci.node.nlink
  · rw [if_pos h1, if_pos h1]
    obtain ⟨ci1, v1, e1, B⟩ := inodeBranch_spec hc h m
    obtain ⟨ci2, v2, e2, E, _, _, _, _, t1, t2, _, tt⟩ := setMeta_file hc B.ch.wf B.mnt B.dirty (fun n => { n with nlink := n.nlink - 1 }) rfl rfl rfl rfl
    have hf1 : ciFile c v1 ci1 = f := by
      have := B.ch.wf.file B.mnt
      rw [B.ino, B.same, hf] at this; injection this with this; exact this.symm
    refine ⟨v2, ?_, ?_, ?_, ?_, ?_⟩
    · simp only [run_bind, e1, runCi_ok e2, run_pure]
    · have := E.ch; rw [B.ino] at this; exact B.ch.trans hc this
    · have := E.file
      rw [hf1, B.ino] at this; rw [this, B.node]
      congr 1
      ext1 <;> first | rfl | (rw [hfe]; rfl)
    · unfold tot; rw [t1, t2, B.free, B.almost]; exact Nat.le_refl _
    · intro D
      have hef := E.file
      exact B.kp.trans (E.ch.kpAll (fun hh => by rw [hef] at hh; cases hh) (fun hh => by rw [B.ch.wf.file B.mnt] at hh; cases hh) tt)
  · rw [if_neg h1, if_neg h1]
    unfold inodeDelete
    rw [if_neg (by rw [hnb]; simp)]
    by_cases hz : ci.node.size = 0
    · rw [if_neg (by omega)]
      have g : Gone c v v ci.ino := Gone.empty hc h (fun p hp => h.tree_zero hf (by rw [hfe]; exact hz) hp)
      obtain ⟨v', e, ch, fn, _, t1, t2⟩ := inodeFree_spec hc h m.ino (by rw [hf]; rfl) g rfl ⟨w, hnb⟩
      exact ⟨v', e, ch, fn, (by unfold tot; rw [t1, t2]; exact Nat.le_refl _), fun D j _ hj => ch.kp j (fun hh => hj (by rw [hh]; exact fn)) hj⟩
    · rw [if_pos hz]
      have fk := h.fok hc m
      rcases dataTruncate_spec hc fk m.seek 0 (Or.inr rfl) with ⟨h1, _⟩ | ⟨h0, ⟨ci', v'⟩, V', e, F, g, _⟩ | ⟨h0, ⟨ci', v'⟩, V', e, T⟩
      · exact absurd h1 (by omega)
      · exact absurd (g (Nat.zero_le _)).2 (by omega)
      · have hV : ∀ p, PosOk c p → V' p = 0 := by
          intro p hp
          apply Decidable.byContradiction; intro hx
          have := T.ok.bnd p hp hx
          rw [T.size] at this; omega
        have fr := T.frn
        have g : Gone c v v' ci.ino := by
          refine { step := fr.qt.step, useReserved := fr.qt.useReserved, readOnly := fr.qt.readOnly, freeInodes := fr.qt.freeInodes, sb := ?_, sd := ?_, oth := ?_, full := ?_ }
          · intro j hj w'; exact fr.tbits _ (slot_range hc hj w').1 (slot_range hc hj w').2
          · intro j hj hjv w'
            refine fr.tblk _ (slot_range hc hjv w').1 (slot_range hc hjv w').2 ?_
            show ci.nodeBuf ≠ _
            rw [hnb]; intro e; injection e with e
            exact hj (slot_inj hc m.ino hjv e).1.symm
          · intro x hx; exact ⟨fr.oth x hx, (T.ok.inv.oth x hx).2.2⟩
          · intro x g1 g2 g3
            rcases T.ok.inv.full x g1 g2 g3 with hx | ⟨p, hp, e⟩
            · exact hx
            · rw [hV p hp] at e
              have := Conf.Ok.table_ge c; have := Conf.Ok.first_ge c; omega
        have hino : ci'.ino = ci.ino := fr.ino
        obtain ⟨v2, e2, ch, fn, _, t1, t2⟩ := inodeFree_spec (ci := ci') hc h m.ino (by rw [hf]; rfl) g hino ⟨w, by
          have : ci'.nodeBuf = ci.nodeBuf := fr.nodeBuf
          rw [this, hnb]⟩
        refine ⟨v2, ?_, ch, fn, ?_, fun D j _ hj => ch.kp j (fun hh => hj (by rw [hh]; exact fn)) hj⟩
        · simp only [run_bind, runCi_ok e, e2]
        · have := T.tot
          unfold tot at this ⊢; rw [t1, t2]; exact this

end RedFs
