import Verif.Lemmas.Ns
set_option linter.unusedSimpArgs false
set_option linter.unusedVariables false
namespace RedFs
open M Bitmap Vol Str

variable {c : Conf} {v v' : Vol} {ci ci' : Cinode} {F F' : Files}

theorem create_clean (p : Nat) (nm : List Byte) (b : Bool) : Clean (Spec.Create c p nm b) := fun _ _ _ h => h.1
theorem link_clean (p : Nat) (nm : List Byte) (i : Nat) : Clean (Spec.Link c p nm i) := fun _ _ _ h => h.1
theorem unlink_clean (p : Nat) (nm : List Byte) : Clean (Spec.Unlink c p nm) := fun _ _ _ h => h.1
theorem rename_clean (p : Nat) (nm : List Byte) (p' : Nat) (nm' : List Byte) : Clean (Spec.Rename c p nm p' nm') := fun _ _ _ h => h.1

/-- One new entry. -/
theorem bound_new (hc : c.Ok) (hp : c.PosixOk) {p k i : Nat} {s : List Byte} (hfree : ∀ j, ¬ Has c F p s j) (hk : entOf c F p k = none)
    (he : ∀ q m, entOf c F' q m = if q = p ∧ m = k then some (i, s) else entOf c F q m) : Bound c F F' [(p, s, some i)] where
  touched x hx j := by
    rw [List.mem_singleton] at hx; subst hx
    simp only
    constructor
    · rintro ⟨m, hm⟩
      rw [he] at hm; split at hm
      · cases hm; rfl
      · exact absurd ⟨m, hm⟩ (hfree j)
    · intro h; cases h; exact ⟨k, by rw [he, if_pos ⟨rfl, rfl⟩]⟩
  other q t hne m j := by
    have hne := hne _ (List.mem_singleton.2 rfl)
    simp only at hne
    rw [he]; split
    · next e =>
      rw [e.1, e.2, hk]; simp; rintro rfl h; exact hne ⟨e.1.symm, h⟩
    · rfl

/-- One entry less. -/
theorem bound_del (hc : c.Ok) (hp : c.PosixOk) {p k i : Nat} {s : List Byte} (hk : entOf c F p k = some (i, s))
    (hu : ∀ m j, entOf c F p m = some (j, s) → m = k)
    (he : ∀ q m, entOf c F' q m = if q = p ∧ m = k then none else entOf c F q m) : Bound c F F' [(p, s, none)] where
  touched x hx j := by
    rw [List.mem_singleton] at hx; subst hx
    simp only
    constructor
    · rintro ⟨m, hm⟩
      rw [he] at hm; split at hm
      · cases hm
      · next e => exact absurd ⟨rfl, hu m j hm⟩ e
    · intro h; cases h
  other q t hne m j := by
    have hne := hne _ (List.mem_singleton.2 rfl)
    simp only at hne
    rw [he]; split
    · next e => rw [e.1, e.2, hk]; simp; rintro rfl h; exact hne ⟨e.1.symm, h⟩
    · rfl

variable {α : Type}

/-- If the operation fails for lack of space then there were fewer than `n` free blocks, unless directory `p` is full.
If `keep`, then the operation that failed has not changed the number of blocks in use. -/
def Nospc (c : Conf) (n p : Nat) (keep : Bool) (v : Vol) (r : Except Err α) (v' : Vol) : Prop :=
  r = .error .enospc → ((∀ k, k < c.direntsMax → entOf c (files c v) p k ≠ none) ∨ freeBlockCount c v < n) ∧ (keep = true → tot v' = tot v)

theorem Nospc.ok {n p : Nat} {keep : Bool} (a : α) : Nospc c n p keep v (.ok a) v' := fun h => by cases h
theorem Nospc.err {n p : Nat} {keep : Bool} {e : Err} (h : e ≠ .enospc) : Nospc c n p keep v (.error e : Except Err α) v' := fun hh => by
  injection hh with hh; exact absurd hh h

/-- `OpSpec` with the reason for a lack of space. -/
def OpSpecN (c : Conf) (P : Files → Prop) (n p : Nat) (keep : Bool) (m : VM α) (R : Files → Except Err α → Files → Prop) : Prop :=
  ∀ v, Inv c P v → v.readOnly = false → ∃ r v', (m v = (r, v') ∧ Nospc c n p keep v r v') ∧ Eff c P v v' ∧ R (files c v) r (files c v')

theorem OpSpecN.spec {α : Type} {n p : Nat} {P : Files → Prop} {m : VM α} {R : Files → Except Err α → Files → Prop} {keep : Bool} (h : OpSpecN c P n p keep m R) : OpSpec c P m R :=
  fun v hi hro => let ⟨r, v', h1, h2⟩ := h v hi hro; ⟨r, v', h1.1, h2⟩

theorem NotDir.ne {p : Nat} {e : Err} (h : Spec.NotDir F p e) : e ≠ .enospc := by
  rcases h with ⟨rfl, _⟩ | ⟨rfl, _⟩ <;> simp
theorem NotReg.ne {p : Nat} {e : Err} (h : Spec.NotReg F p e) : e ≠ .enospc := by
  rcases h with ⟨rfl, _⟩ | ⟨rfl, _⟩ <;> simp
theorem BadName.ne {s : List Byte} {e : Err} (h : BadName c s e) : e ≠ .enospc := by
  rcases h with ⟨_, rfl⟩ | ⟨_, rfl⟩ | ⟨_, _, _, rfl⟩ <;> simp

theorem coreCreateSub_full (hc : c.Ok) (hp : c.PosixOk) (p : Nat) {name : List Byte} (hn : CStr.Ok name) (isDir : Bool) :
    OpSpecN c (NsOk c) 6 p true (coreCreateSub c p name isDir) (Spec.Create c p (nameOf c name) isDir) := by
  intro v h hro
  unfold coreCreateSub
  rw [rwOp_run hro]
  rw [run_bind]
  rcases mountDir hc h.wf p false with ⟨e, h1, h2⟩ | ⟨f, pi, v1, hd, h2, fr, _, hnb⟩
  · exact ⟨.error e, v, ⟨by rw [h2], .err (NotDir.ne h1)⟩, Eff.refl h, rfl, Or.inl h1⟩
  obtain ⟨rfl, _⟩ := hnb rfl
  rw [h2]; dsimp only
  rw [run_bind]
  obtain ⟨fr2, hr2, _, _⟩ := root_live h.now.graph
  have hmode : (if isDir = true then modeDir else modeReg) = modeReg ∨ (if isDir = true then modeDir else modeReg) = modeDir := by cases isDir <;> simp
  have hpv : c.inodeValid p = true := files_valid hc h.wf (by rw [hd.1]; rfl)
  rcases inodeCreate_spec hc h.wf (fun _ => by rw [hr2.1]; rfl) hmode (pino := p) (fun _ => hpv) hp.posix with ⟨g, e⟩ | ⟨i, ci, v2, e, C, hlow⟩
  · rw [e]
    exact ⟨.error .enfile, v1, ⟨rfl, .err (by simp)⟩, Eff.refl h, rfl, Or.inr ⟨⟨f, hd⟩, Or.inl ⟨rfl, g⟩⟩⟩
  rw [e]; dsimp only
  have hip : i ≠ p := by rintro rfl; have := hd.1; rw [C.was] at this; cases this
  have md := h.now.mdir hd fr
  have hpi := fr.ino
  have md2 := md.frame h.wf C.ch (by rw [hpi]; exact fun e => hip e.symm)
  obtain ⟨pi3, v3, e3, B⟩ := inodeBranch_spec hc C.ch.wf md2.mnt
  have md3 := md2.after B C.ch.wf
  have hpi3 : pi3.ino = p := by rw [B.ino, hpi]
  have ch3 : Ch c v1 v3 (fun j => j = i ∨ j = p) := (C.ch.mono (fun j hj => Or.inl hj)).trans hc (B.ch.mono (fun j hj => Or.inr (by rw [hj, hpi])))
  have ht3 : tot v3 = tot v1 := by rw [B.tot]; unfold tot; rw [C.free, C.almost]
  have hfb3 : freeBlockCount c v3 = freeBlockCount c v1 := by
    unfold freeBlockCount; rw [ch3.useReserved, B.free, C.free]
  have hF3 : ∀ j, files c v3 j = files c v2 j := B.same
  have hi3 : files c v3 i = some (AFile.new (if isDir = true then modeDir else modeReg) p) := by rw [hF3]; exact C.file
  have hent : ∀ k, entOf c (files c v1) p k = (dirOf c f).slot k := h.now.ent hc hp hd
  have hci : ci.nodeBuf ≠ none := by obtain ⟨w, e, _⟩ := C.mnt.nb; rw [e]; simp
  -- giving the inode back
  have undo : ∀ (er : Err) (pi4 : Cinode) (v4 : Vol), dirCreate c name ci.ino ⟨pi3, v3⟩ = (.error er, ⟨pi4, v4⟩) → Ch c v3 v4 (· = p) → (∀ j, files c v4 j = files c v3 j) → tot v4 = tot v3 →
      ∃ v', (do match ← attempt (do let p ← inodeBranch c pi; runCi p (dirCreate c name ci.ino)) with
                | .ok _ => pure ci.ino
                | .error e => do
                  match ← attempt (inodeFree c ci) with
                  | .ok _ => fail e
                  | .error _ => critical e : VM Nat) v2 = (.error er, v') ∧ Eff c (NsOk c) v1 v' ∧ files c v' = files c v1 ∧ tot v' = tot v1 := by
    intro er pi4 v4 e4 ch4 hF4 ht4
    have hi4 : files c v4 i = some (AFile.new (if isDir = true then modeDir else modeReg) p) := by rw [hF4]; exact hi3
    obtain ⟨w, hw, _⟩ := C.mnt.nb
    obtain ⟨v5, e5, ch5, hn5, _, t1, t2⟩ := inodeFree_spec (ci := ci) hc ch4.wf C.valid (by rw [hi4]; rfl)
      (Gone.empty hc ch4.wf (fun q hq => ch4.wf.tree_zero hi4 rfl hq)) C.ino ⟨w, by rw [hw, C.ino]⟩
    refine ⟨v5, ?_, ?_⟩
    · simp only [run_bind, run_attempt, e3, runCi_err e4, e5, run_fail]
    · have hF5 : files c v5 = files c v1 := by
        funext j
        by_cases ej : j = i
        · rw [ej, hn5, C.was]
        · rw [ch5.files j ej, hF4, hF3, C.ch.files j ej]
      have ch : Ch c v1 v5 (fun j => j = i ∨ j = p) := (ch3.trans hc (ch4.mono fun j hj => Or.inr hj)).trans hc (ch5.mono fun j hj => Or.inl hj)
      have ht : tot v5 = tot v1 := by rw [← ht3, ← ht4]; unfold tot; rw [t1, t2]
      exact ⟨⟨h.step hc ch (by rw [hF5]; exact h.now) (by rw [ht]; exact h.rsv), ch.step, ch.readOnly, ch.kp.reg (by
        rintro j (rfl | rfl)
        · exact Or.inr (Or.inr ⟨C.was, fun f' hf' => by rw [hn5] at hf'; cases hf'⟩)
        · exact Or.inr (Or.inl ⟨f, by rw [hF5]; exact hd⟩))⟩, hF5, ht⟩
  have hfreeInode : ∃ i, c.inodeValid i = true ∧ files c v1 i = none := ⟨i, C.valid, C.was⟩
  rcases dirCreate_spec hc hp B.ch.wf md3 B.dirty (i := ci.ino) hn (by rw [C.ino]; exact C.valid) with ⟨er, hb, e4⟩ | ⟨hok, ⟨k, j, pi4, e4, hs⟩ | ⟨hno, ⟨pi4, e4, hfull, hfull'⟩ | ⟨pi4, v4, e4, E, ht, h6⟩ | ⟨k, pi4, v4, f', e4, hkn, hkm, hks, U, m4, ht, hr⟩⟩⟩
  · obtain ⟨v', e5, E, hF, hT⟩ := undo _ _ _ e4 (Ch.refl B.ch.wf) (fun _ => rfl) rfl
    exact ⟨_, v', ⟨e5, .err (BadName.ne hb)⟩, E, hF, Or.inr ⟨⟨f, hd⟩, Or.inr ⟨hfreeInode, Or.inl hb⟩⟩⟩
  · obtain ⟨v', e5, E, hF, hT⟩ := undo _ _ _ e4 (Ch.refl B.ch.wf) (fun _ => rfl) rfl
    exact ⟨_, v', ⟨e5, .err (by simp)⟩, E, hF, Or.inr ⟨⟨f, hd⟩, Or.inr ⟨hfreeInode, Or.inr ⟨hok, Or.inl ⟨rfl, j, k, by rw [hent]; exact hs⟩⟩⟩⟩⟩
  · obtain ⟨v', e5, E, hF, hT⟩ := undo _ _ _ e4 (Ch.refl B.ch.wf) (fun _ => rfl) rfl
    exact ⟨_, v', ⟨e5, fun _ => ⟨Or.inl fun k hk => by rw [hent]; exact hfull' k (by rw [hfull]; exact hk), fun _ => hT⟩⟩, E, hF, Or.inr ⟨⟨f, hd⟩, Or.inr ⟨hfreeInode, Or.inr ⟨hok, Or.inr ⟨rfl, fun j ⟨k, hk⟩ => hno k j (by rw [← hent]; exact hk)⟩⟩⟩⟩⟩
  · have chE := E.ch; rw [hpi3] at chE
    obtain ⟨v', e5, E', hF, hT⟩ := undo _ _ _ e4 chE (fun j => by
      by_cases ej : j = p
      · rw [ej, ← hpi3, E.file, B.ch.wf.file B.mnt]
      · exact chE.files j ej) ht
    exact ⟨_, v', ⟨e5, fun _ => ⟨Or.inr (by rw [← hfb3]; exact h6), fun _ => hT⟩⟩, E', hF, Or.inr ⟨⟨f, hd⟩, Or.inr ⟨hfreeInode, Or.inr ⟨hok, Or.inr ⟨rfl, fun j ⟨k, hk⟩ => hno k j (by rw [← hent]; exact hk)⟩⟩⟩⟩⟩
  · -- success
    have hrun : (do match ← attempt (do let p ← inodeBranch c pi; runCi p (dirCreate c name ci.ino)) with
                | .ok _ => pure ci.ino
                | .error e => do
                  match ← attempt (inodeFree c ci) with
                  | .ok _ => fail e
                  | .error _ => critical e : VM Nat) v2 = (.ok i, v4) := by
      simp only [run_bind, run_attempt, e3, runCi_ok e4, run_pure]; rw [C.ino]
    have chE := U.ed.ch; rw [hpi3] at chE
    have ch : Ch c v1 v4 (fun j => j = i ∨ j = p) := ch3.trans hc (chE.mono fun j hj => Or.inr hj)
    have hF4i : files c v4 i = some (AFile.new (if isDir = true then modeDir else modeReg) p) := by rw [chE.files i hip]; exact hi3
    have hF4p : files c v4 p = some f' := by have := U.ed.file; rwa [hpi3] at this
    have hF4o : ∀ j, j ≠ i → j ≠ p → files c v4 j = files c v1 j := fun j h1 h2 => ch.files j (fun hh => hh.elim h1 h2)
    rw [C.ino] at U
    have hl : f'.nlink = f.nlink := by rw [U.nlink, B.node, ← fr.nlink]
    have hpar : f'.parent = f.parent := by rw [U.parent, B.node, ← fr.parent]
    have hslot : ∀ m, ((dirOf c f).set k (i, nameOf c name)).slot m = if m = k then some (i, nameOf c name) else (dirOf c f).slot m := fun m => rfl
    have hE : ∀ q m, entOf c (files c v4) q m = if q = p ∧ m = k then some (i, nameOf c name) else entOf c (files c v1) q m := by
      intro q m
      by_cases e1 : q = p
      · subst e1
        rw [entOf_file hc hp hF4p U.file U.ok, hslot, hent]
        by_cases e2 : m = k
        · rw [if_pos e2, if_pos ⟨rfl, e2⟩]
        · rw [if_neg e2, if_neg (fun h => e2 h.2)]
      · rw [if_neg (fun h => e1 h.1)]
        by_cases e2 : q = i
        · subst e2
          rw [entOf_none C.was]
          unfold entOf; rw [hF4i]
          have hz : entAt c (AFile.new (if isDir = true then modeDir else modeReg) p) m = none := by
            unfold entAt
            refine if_neg (fun h1 => ?_)
            have h1 := h1.1
            have : (AFile.new (if isDir = true then modeDir else modeReg) p).size = dirSize c 0 := rfl
            rw [this, offIdx_dirSize hp] at h1; omega
          dsimp only
          rw [hz]; exact ite_self _
        · exact entOf_congr (hF4o q e2 e1) m
    have hk1 : entOf c (files c v1) p k = none := by rw [hent]; exact hks
    have hfree : ∀ j, ¬ Has c (files c v1) p (nameOf c name) j := fun j ⟨k, hk⟩ => hno k j (by rw [← hent]; exact hk)
    have hnode : ∀ j, (graphOf c (files c v4)).node j = if j = i then some ⟨isDir, 1, p⟩ else (graphOf c (files c v1)).node j := by
      intro j
      by_cases e1 : j = i
      · subst e1; rw [if_pos rfl, node_of hF4i]
        cases isDir <;> rfl
      · rw [if_neg e1]
        by_cases e2 : j = p
        · subst e2; rw [node_of hF4p, node_of hd.1, U.file.mode, hd.2, hl, hpar]
        · show (files c v4 j).map _ = (files c v1 j).map _
          rw [hF4o j e1 e2]
    have hG : NsOk c (files c v4) := by
      refine ⟨?_, ?_⟩
      · intro q g hg
        by_cases e1 : q = p
        · subst e1
          have := hg.1; rw [hF4p] at this; injection this with this; subst this
          rw [U.file.dirOf hc hp U.ok]; exact ⟨U.file, U.ok⟩
        by_cases e2 : q = i
        · subst e2
          have := hg.1; rw [hF4i] at this; injection this with this; subst this
          have hdf : DirFile c (AFile.new (if isDir = true then modeDir else modeReg) p) ⟨0, fun _ => none⟩ :=
            ⟨hg.2, rfl, fun off => by show 0 = dirByte c _ off; unfold dirByte; split <;> rfl⟩
          have hok0 : DirOk c ⟨0, fun _ => none⟩ := ⟨Nat.zero_le _, fun _ _ => rfl, fun h => absurd h (Nat.lt_irrefl 0), (fun _ _ _ h => by cases h), (fun _ _ _ h => by cases h), (fun _ _ _ _ _ h => by cases h)⟩
          rw [hdf.dirOf hc hp hok0]; exact ⟨hdf, hok0⟩
        · exact h.now.dirs q g ⟨by rw [← hF4o q e2 e1]; exact hg.1, hg.2⟩
      · refine h.now.graph.create (i := i) (p := p) (k := k) (d := isDir) (node_none C.was) (node_of hd.1) (by simp [hd.2]) (slot_none.2 hk1) hnode ?_
        intro q m
        show (entOf c _ q m).map _ = if _ then _ else (entOf c _ q m).map _
        rw [hE]
        split <;> rfl
    refine ⟨.ok i, v4, ⟨hrun, .ok _⟩, ⟨h.step hc ch hG ?_, ch.step, ch.readOnly, ch.kp.reg (by
        rintro j (rfl | rfl)
        · exact Or.inr (Or.inr ⟨C.was, fun f' hf' => by rw [hF4i] at hf'; injection hf' with hf'; rw [← hf']; rfl⟩)
        · exact Or.inr (Or.inl ⟨f', hF4p, U.file.mode⟩))⟩, hok, hfree, C.valid, C.was, hlow, hF4i, ⟨f, f', hd, ⟨hF4p, U.file.mode⟩, hl, hpar⟩, hF4o, bound_new hc hp hfree hk1 hE⟩
    have hur : v3.useReserved = false := by rw [ch3.useReserved]; exact h.idle
    have := h.rsv
    rcases hr hur with t | t <;> omega

theorem coreCreateSub_spec (hc : c.Ok) (hp : c.PosixOk) (p : Nat) {name : List Byte} (hn : CStr.Ok name) (isDir : Bool) :
    OpSpec c (NsOk c) (coreCreateSub c p name isDir) (Spec.Create c p (nameOf c name) isDir) := (coreCreateSub_full hc hp p hn isDir).spec

end RedFs
