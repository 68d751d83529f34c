import Verif.Lemmas.TimesCalls
import Verif.Lemmas.CoreLink
import Verif.Lemmas.RenameAll
set_option linter.unusedSimpArgs false
set_option linter.unusedVariables false
/-!
The stamps set by the calls that create, remove and rename.
-/
namespace RedFs.Times
open RedFs M Str

variable {c : Conf} {clk : Nat → Nat} {α β : Type}

/-- The stamps after a call: the failed one has stamped unused inodes at most, the successful one has set `L` with `Q a L`. -/
structure Marked (c : Conf) (clk : Nat → Nat) (Q : α → List Mark → Prop) (s : St) (r : Except Err α) (s' : St) : Prop where
  err : ∀ e, r = .error e → ∃ L : List Mark, (∀ x ∈ L, files c s.v x.i = none) ∧ (L ≠ [] → s'.v.branched = true) ∧ s'.t = stamps c clk L s.t
  ok : ∀ a, r = .ok a → ∃ L, Q a L ∧ (L ≠ [] → s'.v.branched = true) ∧ s'.t = stamps c clk L s.t

theorem Marks.marked {L : α → List Mark} {Q : α → List Mark → Prop} {s s' : St} {r : Except Err α} (h : Marks c clk L s r s') (hQ : ∀ a, Q a (L a)) : Marked c clk Q s r s' :=
  ⟨fun e he => ⟨[], fun x hx => (by cases hx), fun hh => absurd rfl hh, by rw [h.err e he, stamps_nil]⟩,
   fun a ha => ⟨L a, hQ a, (h.ok a ha).1, (h.ok a ha).2⟩⟩
theorem Marked.fail {Q : α → List Mark → Prop} {s s' : St} {r : Except Err α} {e : Err} (h : r = .error e) (ht : s'.t = s.t) : Marked c clk Q s r s' :=
  ⟨fun _ _ => ⟨[], fun x hx => (by cases hx), fun hh => absurd rfl hh, by rw [ht, stamps_nil]⟩, fun a ha => by rw [h] at ha; cases ha⟩

theorem files_at {v : Vol} (h : Inv c (NsOk c) v) : Idle v := h.wf.vol.idle

/-! ### Creating -/

theorem createC_run (i p m : Nat) (s : St) : create c clk i p m s = (match inodeCreate c i p m s.v with
    | (.ok ci, v) => (.ok ci, ⟨v, stamps c clk [⟨ci.ino, true, true, true⟩] s.t⟩)
    | (.error e, v) => (.error e, ⟨v, s.t⟩)) := by
  unfold create
  rw [run_bind]
  unfold lift
  rcases inodeCreate c i p m s.v with ⟨e | ci, v⟩
  · rfl
  · dsimp only
    rw [run_bind]
    unfold stamps
    by_cases hc : c.timestamps = true
    · rw [if_pos hc, if_pos hc]; rfl
    · rw [if_neg hc, if_neg hc]; rfl

theorem create_marks (hc : c.Ok) (hp : c.PosixOk) {p : Nat} {nm : List Byte} {isDir : Bool} {s s' : St} {r : Except Err Nat} (hi : Inv c (NsOk c) s.v)
    (h : createSub c clk p nm isDir s = (r, s')) :
    Marked c clk (fun j L => L = [⟨j, true, true, true⟩, ⟨p, false, true, true⟩]) s r s' := by
  rcases rwOp_inv h with ⟨e, rfl, rfl⟩ | h
  · exact .fail rfl rfl
  rcases bind_inv h with ⟨e, h1, rfl⟩ | ⟨pi, s1, h1, h⟩
  · exact .fail rfl (lift_inv h1).2
  obtain ⟨h1, t1⟩ := lift_inv h1
  obtain ⟨v1, H⟩ := mount_held (files_at hi) h1
  obtain ⟨f, hf⟩ : ∃ f, Spec.IsDir (files c s.v) p f := by
    rcases mountDir hc hi.wf p false with ⟨e, _, g⟩ | ⟨f, _, _, g, _⟩
    · rw [g] at h1; cases h1
    · exact ⟨f, g⟩
  obtain ⟨fr2, hr2, _, _⟩ := root_live hi.now.graph
  have hmode : (if isDir = true then modeDir else modeReg) = modeReg ∨ (if isDir = true then modeDir else modeReg) = modeDir := by cases isDir <;> simp
  have hpv : c.inodeValid p = true := files_valid hc hi.wf (by rw [hf.1]; rfl)
  have e2 := inodeCreate_spec hc hi.wf (fun _ => by rw [hr2.1]; rfl) hmode (pino := p) (fun _ => hpv) hp.posix
  rw [run_bind, createC_run] at h
  rw [v1] at h
  rcases e2 with ⟨_, e2⟩ | ⟨i, ci, v2, e2, C, _⟩
  · rw [e2] at h
    simp only [Prod.mk.injEq] at h
    obtain ⟨rfl, rfl⟩ := h
    exact .fail rfl t1
  rw [e2] at h
  dsimp only at h
  rw [C.ino, t1] at h
  have hb2 : v2.branched = true := by
    obtain ⟨w, _, h3, _, h5⟩ := C.mnt.nb
    cases hb : v2.branched
    · exfalso
      have hid := C.ch.wf.vol.idle hb
      have hbr : ci.branched = true := C.mnt.dirty C.dirty
      have hval := C.mnt.ino
      have hcur := bitGet_cur (c := c) hc C.ch.wf.vol hval w
      have hcmt := bitGet_cmt (c := c) hc C.ch.wf.vol hval w
      rw [h3] at hcur
      rw [h5.1 hbr] at hcmt
      unfold inodeBitGet at hcur hcmt
      rw [if_pos hval] at hcur hcmt
      rw [blockGet_same hid, hcmt] at hcur
      cases hcur
    · rfl
  have H2 : Held v2 pi p := H.tag rfl (fun _ => hb2)
  rcases bind_inv h with ⟨e, h3, rfl⟩ | ⟨x, s3, h3, h⟩
  · obtain ⟨x, hx, -⟩ := attempt_inv h3; cases hx
  obtain ⟨x', hx', h3⟩ := attempt_inv h3
  cases hx'
  rcases x with e | ⟨_, p3⟩
  · -- failed: the inode is freed
    have hs3 : s3.t = stamps c clk [⟨i, true, true, true⟩] s.t ∧ s3.v.branched = true := by
      rcases bind_inv h3 with ⟨e, g, _⟩ | ⟨pi', s4, g, g'⟩
      · obtain ⟨g1, g2⟩ := kb_inv (inodeBranch_kb _) g
        exact ⟨g1, g2 hb2⟩
      · obtain ⟨g1, g2⟩ := kb_inv (inodeBranch_kb _) g
        obtain ⟨g3, g4⟩ := kb_inv (kb_runCi (dirCreate_kd _ _)) g'
        exact ⟨g3.trans g1, g4 (g2 hb2)⟩
    dsimp only at h
    rcases bind_inv h with ⟨e', h4, rfl⟩ | ⟨y, s4, h4, h⟩
    · obtain ⟨x, hx, -⟩ := attempt_inv h4; cases hx
    obtain ⟨y', hy', h4⟩ := attempt_inv h4
    cases hy'
    obtain ⟨g1, g2⟩ := kb_inv (inodeFree_kb _) h4
    have fin : ∀ e', r = .error e' ∧ s'.v.branched = true ∧ s'.t = stamps c clk [⟨i, true, true, true⟩] s.t →
        Marked c clk (fun j L => L = [⟨j, true, true, true⟩, ⟨p, false, true, true⟩]) s r s' := by
      rintro e' ⟨rfl, k2, k3⟩
      exact ⟨fun _ _ => ⟨[⟨i, true, true, true⟩], fun x hx => by rw [List.mem_singleton] at hx; rw [hx]; exact C.was, fun _ => k2, k3⟩, fun a ha => by cases ha⟩
    rcases y with e' | _
    · dsimp only at h
      obtain ⟨k1, k2⟩ := kb_inv (critical_kb _) h
      have : ∃ e, r = .error e := by
        obtain ⟨h, -⟩ := lift_inv h
        unfold critical at h
        simp only [run_bind] at h
        exact ⟨e, (Prod.mk.inj h).1.symm⟩
      obtain ⟨e, hr⟩ := this
      exact fin e ⟨hr, k2 (g2 hs3.2), k1.trans (g1.trans hs3.1)⟩
    · dsimp only at h
      obtain ⟨rfl, rfl⟩ := fail_inv h
      exact fin e ⟨rfl, g2 hs3.2, g1.trans hs3.1⟩
  · dsimp only at h
    rcases bind_inv h3 with ⟨e, g, hx⟩ | ⟨pi', s4, g, g'⟩
    · cases hx
    obtain ⟨g, g0⟩ := lift_inv g
    have R := H2.branch g
    obtain ⟨g1, g2, g3⟩ := runCi_inv (dirCreate_kd _ _) g'
    have R := R.tag g2 (g3 R.vol)
    rcases bind_inv h with ⟨e, h5, rfl⟩ | ⟨u, s5, h5, h⟩
    · have := (put_inv h5).1; cases this
    obtain ⟨-, v5, t5⟩ := put_inv h5
    obtain ⟨rfl, rfl⟩ := pure_inv h
    refine ⟨fun e he => (by cases he), fun a ha => ?_⟩
    cases ha
    refine ⟨_, rfl, fun _ => by rw [v5]; exact R.vol, ?_⟩
    rw [t5, putClk_ready R rfl, g1, g0]
    dsimp only
    rw [stamps_append]; rfl

/-! ### Removing -/

theorem runCi_eq' {m : DM α} {ci : Cinode} {v v' : Vol} {a : α × Cinode} (h : runCi ci m v = (.ok a, v')) : m ⟨ci, v⟩ = (.ok a.1, ⟨a.2, v'⟩) := by
  unfold runCi at h
  rcases hx : m ⟨ci, v⟩ with ⟨e | b, s⟩
  · rw [hx] at h; cases h
  · rw [hx] at h
    simp only [Prod.mk.injEq, Except.ok.injEq] at h
    obtain ⟨rfl, rfl⟩ := h
    rfl

/-- What `CoreUnlink` has looked up. -/
theorem unlink_pre (hc : c.Ok) (hp : c.PosixOk) {p : Nat} {nm : List Byte} (hn : CStr.Ok nm) {v v1 v2 v3 v4 : Vol} (hi : Inv c (NsOk c) v) {pi pi' pi2 ci : Cinode} {k i : Nat}
    (h1 : inodeMount c p .dir false v = (.ok pi, v1)) (h2 : runCi pi (dirLookup c nm) v1 = (.ok (.found k i, pi'), v2))
    (h3 : inodeBranch c pi' v2 = (.ok pi2, v3)) (h4 : inodeMount c i .either false v3 = (.ok ci, v4)) :
    ∃ g, Has c (files c v) p (nameOf c nm) i ∧ files c v i = some g ∧ ci.node.nlink = g.nlink := by
  rcases mountDir hc hi.wf p false with ⟨e, _, g⟩ | ⟨f, pi0, v0, hd, g, fr, _, hnb⟩
  · rw [g] at h1; cases h1
  obtain ⟨rfl, _⟩ := hnb rfl
  rw [g] at h1
  simp only [Prod.mk.injEq, Except.ok.injEq] at h1
  obtain ⟨rfl, rfl⟩ := h1
  have h2 := runCi_eq' h2
  have md := hi.now.mdir hd fr
  have hent : ∀ k, entOf c (files c v0) p k = (dirOf c f).slot k := hi.now.ent hc hp hd
  rcases dirLookup_spec hc hp hi.wf md hn with ⟨_, e⟩ | ⟨_, e⟩ | ⟨_, _, r, pi1, e, m1, s1, L⟩
  · rw [e] at h2; cases h2
  · rw [e] at h2; cases h2
  rw [e] at h2
  simp only [Prod.mk.injEq, Except.ok.injEq, DS.mk.injEq] at h2
  obtain ⟨rfl, rfl, rfl⟩ := h2
  have hk : entOf c (files c v0) p k = some (i, nameOf c nm) := by rw [hent]; exact L
  have md1 := md.ro m1 s1
  obtain ⟨pi3, v5, e2, B⟩ := inodeBranch_spec hc hi.wf md1.mnt
  rw [e2] at h3
  simp only [Prod.mk.injEq, Except.ok.injEq] at h3
  obtain ⟨rfl, rfl⟩ := h3
  rcases inodeMount_spec hc B.ch.wf i .either false with ⟨_, h2⟩ | ⟨g', h1, ⟨e, h2, h3⟩ | ⟨_, ci', v3, h3, fc, _, hv3⟩⟩
  · rw [h2] at h4; cases h4
  · cases h2
  rw [h3] at h4
  simp only [Prod.mk.injEq, Except.ok.injEq] at h4
  obtain ⟨rfl, rfl⟩ := h4
  exact ⟨g', ⟨k, hk⟩, by rw [← B.same]; exact h1, fc.nlink⟩

/-- The `CINODE` after `RedInodeLinkDec`. -/
theorem linkDec_inv {v v' : Vol} {ci ci' : Cinode} {i : Nat} (H : Held v ci i) (h : linkDec c ci v = (.ok ci', v')) :
    (1 < ci.node.nlink ∧ Ready v' ci' i) ∨ (¬ 1 < ci.node.nlink ∧ ci'.nodeBuf = none) := by
  unfold linkDec at h
  rw [if_neg H.buf] at h
  split at h
  · next hl =>
    left
    refine ⟨hl, ?_⟩
    rcases bind_inv h with ⟨e, h1, hx⟩ | ⟨ci1, v1, h1, h⟩
    · cases hx
    have R := H.branch h1
    rcases bind_inv h with ⟨e, h2, hx⟩ | ⟨⟨_, ci2⟩, v2, h2, h⟩
    · cases hx
    obtain ⟨g2, b2⟩ := runCi_tag (kd_setNode _) h2
    have R := R.tag g2 (b2 R.vol)
    obtain ⟨hx, rfl⟩ := pure_inv h
    simp only [Except.ok.injEq] at hx
    rw [hx]
    exact R
  · next hl =>
    right
    refine ⟨hl, ?_⟩
    rcases bind_inv h with ⟨e, h1, hx⟩ | ⟨_, v1, h1, h⟩
    · cases hx
    obtain ⟨hx, -⟩ := pure_inv h
    simp only [Except.ok.injEq] at hx
    rw [hx]
theorem linkDec_kb (ci : Cinode) : KB (linkDec c ci) := by unfold linkDec; kb

theorem unlink_marks (hc : c.Ok) (hp : c.PosixOk) {p : Nat} {nm : List Byte} (hn : CStr.Ok nm) {s s' : St} {r : Except Err Unit} (hi : Inv c (NsOk c) s.v)
    (h : unlinkSub c clk p nm s = (r, s')) :
    Marked c clk (fun _ L => ∃ j g, Has c (files c s.v) p (nameOf c nm) j ∧ files c s.v j = some g ∧
      L = (if 1 < g.nlink then [⟨j, false, false, true⟩] else []) ++ [⟨p, false, true, true⟩]) s r s' := by
  rcases rwOp_inv h with ⟨e, rfl, rfl⟩ | h
  · exact .fail rfl rfl
  rcases bind_inv h with ⟨e, h1, rfl⟩ | ⟨pi, s1, h1, h⟩
  · exact .fail rfl (lift_inv h1).2
  obtain ⟨h1, t1⟩ := lift_inv h1
  obtain ⟨v1, H⟩ := mount_held (files_at hi) h1
  rcases bind_inv h with ⟨e, h2, rfl⟩ | ⟨⟨x, pi'⟩, s2, h2, h⟩
  · exact .fail rfl ((lift_inv h2).2.trans t1)
  obtain ⟨t2, g2, b2⟩ := runCi_inv (dirLookup_kd _) h2
  have h2 := (lift_inv h2).1
  have H := H.tag g2 (fun hb => b2 (by rw [v1]; exact hb))
  dsimp only at h
  rcases x with ⟨k, i⟩ | fr
  swap
  · obtain ⟨rfl, rfl⟩ := fail_inv h
    exact .fail rfl (t2.trans t1)
  dsimp only at h
  rcases bind_inv h with ⟨e, h3, rfl⟩ | ⟨pi2, s3, h3, h⟩
  · exact .fail rfl ((lift_inv h3).2.trans (t2.trans t1))
  obtain ⟨h3, t3⟩ := lift_inv h3
  have R := H.branch h3
  rcases bind_inv h with ⟨e, h4, rfl⟩ | ⟨ci, s4, h4, h⟩
  · exact .fail rfl ((lift_inv h4).2.trans (t3.trans (t2.trans t1)))
  obtain ⟨h4, t4⟩ := lift_inv h4
  obtain ⟨v4, Hc⟩ := mount_held R.idle h4
  have R := R.vol' (v' := s4.v) (by rw [v4]; exact R.vol)
  obtain ⟨g, hHas, hg, hnl⟩ := unlink_pre hc hp hn hi h1 h2 h3 h4
  split at h
  · obtain ⟨rfl, rfl⟩ := fail_inv h
    exact .fail rfl (t4.trans (t3.trans (t2.trans t1)))
  rcases bind_inv h with ⟨e, h5, rfl⟩ | ⟨u, s5, h5, h⟩
  · exact .fail rfl ((lift_inv h5).2.trans (t4.trans (t3.trans (t2.trans t1))))
  obtain ⟨t5, b5⟩ := kb_inv (setUseReserved_kb _) h5
  rcases bind_inv h with ⟨e, h6, rfl⟩ | ⟨⟨y, pi3⟩, s6, h6, h⟩
  · exact .fail rfl ((lift_inv h6).2.trans (t5.trans (t4.trans (t3.trans (t2.trans t1)))))
  obtain ⟨t6, g6, b6⟩ := onCi_inv (dirDelete_kd _) h6
  dsimp only at h
  rcases bind_inv h with ⟨e, h7, rfl⟩ | ⟨u, s7, h7, h⟩
  · exact .fail rfl ((lift_inv h7).2.trans (t6.trans (t5.trans (t4.trans (t3.trans (t2.trans t1))))))
  obtain ⟨t7, b7⟩ := kb_inv (setUseReserved_kb _) h7
  rcases bind_inv h with ⟨e, h8, rfl⟩ | ⟨u, s8, h8, h⟩
  · exact .fail rfl ((lift_inv h8).2.trans (t7.trans (t6.trans (t5.trans (t4.trans (t3.trans (t2.trans t1)))))))
  obtain ⟨t8, b8⟩ := kb_inv (kb_ofExcept _) h8
  have R := R.tag g6 (b8 (b7 (b6 (b5 R.vol))))
  have hT : s8.t = s.t := t8.trans (t7.trans (t6.trans (t5.trans (t4.trans (t3.trans (t2.trans t1))))))
  rcases bind_inv h with ⟨e, h9, rfl⟩ | ⟨ci', s9, h9, h⟩
  · exact .fail rfl ((lift_inv h9).2.trans hT)
  obtain ⟨t9, b9⟩ := kb_inv (criticalAssert_kb (linkDec_kb _)) h9
  have h9 := criticalAssert_ok (lift_inv h9).1
  have R := R.vol' (b9 R.vol)
  have D := linkDec_inv (Hc.tag rfl (fun _ => b8 (b7 (b6 (b5 (by rw [v4]; exact (H.branch h3).vol))))) : Held s8.v ci i) h9
  rcases bind_inv h with ⟨e, h10, rfl⟩ | ⟨u, s10, h10, h⟩
  · have := (put_inv h10).1; cases this
  obtain ⟨-, v10, t10⟩ := put_inv h10
  obtain ⟨rfl, v11, t11⟩ := put_inv h
  refine ⟨fun e he => (by cases he), fun a ha => ⟨_, ⟨i, g, hHas, hg, rfl⟩, fun _ => by rw [v11, v10]; exact R.vol, ?_⟩⟩
  rw [t11, putClk_ready R rfl, t10, t9, hT]
  rcases D with ⟨hl, D⟩ | ⟨hl, D⟩
  · rw [putClk_ready D rfl, stamps_append, if_pos (by rw [← hnl]; exact hl)]; rfl
  · rw [putClk_none D, if_neg (by rw [← hnl]; exact hl)]; rfl

/-! ### Renaming -/

/-- The parents keep their numbers, flags and buffers. -/
structure PT (p p' : Parents) : Prop where
  src : Cinode.tag p'.src = Cinode.tag p.src
  dst : Cinode.tag p'.getDst = Cinode.tag p.getDst
  some : p'.dst.isSome = p.dst.isSome
theorem PT.trans {p q r : Parents} (a : PT p q) (b : PT q r) : PT p r := ⟨b.src.trans a.src, b.dst.trans a.dst, b.some.trans a.some⟩

theorem onSrcP_pt {p p' : Parents} {m : DM α} (hm : KD m) {v v' : Vol} {r : Except Err α} (h : onSrcP p m v = (.ok (r, p'), v')) :
    PT p p' ∧ (v.branched = true → v'.branched = true) := by
  unfold onSrcP at h
  rcases bind_inv h with ⟨e, h1, hx⟩ | ⟨⟨x, ci⟩, v1, h1, h⟩
  · cases hx
  obtain ⟨g1, g2⟩ := onCi_tag hm h1
  obtain ⟨hx, rfl⟩ := pure_inv h
  simp only [Except.ok.injEq, Prod.mk.injEq] at hx
  obtain ⟨-, rfl⟩ := hx
  refine ⟨⟨g1, ?_, rfl⟩, g2⟩
  rcases p with ⟨s, _ | d⟩
  · exact g1
  · rfl
theorem onDstP_pt {p p' : Parents} {m : DM α} (hm : KD m) {v v' : Vol} {r : Except Err α} (h : onDstP p m v = (.ok (r, p'), v')) :
    PT p p' ∧ (v.branched = true → v'.branched = true) := by
  unfold onDstP at h
  rcases bind_inv h with ⟨e, h1, hx⟩ | ⟨⟨x, ci⟩, v1, h1, h⟩
  · cases hx
  obtain ⟨g1, g2⟩ := onCi_tag hm h1
  obtain ⟨hx, rfl⟩ := pure_inv h
  simp only [Except.ok.injEq, Prod.mk.injEq] at hx
  obtain ⟨-, rfl⟩ := hx
  rcases p with ⟨s, _ | d⟩
  · exact ⟨⟨g1, g1, rfl⟩, g2⟩
  · exact ⟨⟨rfl, g1, rfl⟩, g2⟩
theorem renameEntries_pt {p p' : Parents} {a b d e : Nat} {nm : List Byte} {l : Nat} {v v' : Vol} (h : renameEntries c p a b d e nm l v = (.ok p', v')) :
    PT p p' ∧ (v.branched = true → v'.branched = true) := by
  unfold renameEntries at h
  rcases bind_inv h with ⟨e, h1, hx⟩ | ⟨⟨x, p1⟩, v1, h1, h⟩
  · cases hx
  obtain ⟨g1, b1⟩ := onDstP_pt (dirEntryWrite_kd _ _ _ _) h1
  rcases bind_inv h with ⟨e, h2, hx⟩ | ⟨u, v2, h2, h⟩
  · cases hx
  have b2 : v2 = v1 := by
    have h2 : (x, v1) = (Except.ok u, v2) := h2
    exact (Prod.mk.inj h2).2.symm
  rcases bind_inv h with ⟨e, h3, hx⟩ | ⟨⟨y, p2⟩, v3, h3, h⟩
  · cases hx
  obtain ⟨g3, b3⟩ := onSrcP_pt (dirDelete_kd _) h3
  rcases y with e' | u'
  · dsimp only at h
    split at h
    · exfalso
      unfold renameRevert at h
      rcases bind_inv h with ⟨e, h4, hx⟩ | ⟨⟨z, p3⟩, v4, h4, h⟩
      · cases hx
      rcases z with e'' | u''
      · dsimp only at h; unfold critical at h; simp only [run_bind] at h; cases h
      · cases h
    · cases h
  · obtain ⟨hx, rfl⟩ := pure_inv h
    simp only [Except.ok.injEq] at hx
    subst hx
    exact ⟨g1.trans g3, fun hb => b3 (by rw [b2]; exact b1 hb)⟩

/-- After the rename proper. -/
theorem renameMove_inv {p p' : Parents} {a i d j : Nat} {nm : List Byte} {l : Nat} {v v' : Vol} {src : Cinode} {dst : Option Cinode} (hb : v.branched = true)
    (h : renameMove c p a i d j nm l v = (.ok (p', src, dst), v')) : PT p p' ∧ Ready v' src i := by
  unfold renameMove at h
  rcases bind_inv h with ⟨e, h1, hx⟩ | ⟨s1, v1, h1, h⟩
  · cases hx
  have R := mount_ready (fun hh => by rw [hb] at hh; cases hh) h1
  rcases bind_inv h with ⟨e, h2, hx⟩ | ⟨d1, v2, h2, h⟩
  · cases hx
  have R : Ready v2 s1 i := R.vol' (by have := renameReplaced_kb (c := c) s1 j v1 R.vol; rw [h2] at this; exact this)
  have R3 : ∃ v3, v3.branched = true ∧ (do
      let p ← renameEntries c p s1.ino a d j nm l
      let (_, src) ← runCi s1 (setNode fun n => { n with pinode := p.getDst.ino })
      pure (p, src, d1) : VM (Parents × Cinode × Option Cinode)) v3 = (.ok (p', src, dst), v') := by
    split at h
    · rcases bind_inv h with ⟨e, h3, hx⟩ | ⟨u, v3, h3, h⟩
      · cases hx
      exact ⟨v3, by have := cyclicCheck_kb (c := c) s1.ino p.getDst v2 R.vol; rw [h3] at this; exact this, h⟩
    · exact ⟨v2, R.vol, h⟩
  obtain ⟨v3, b3, h⟩ := R3
  rcases bind_inv h with ⟨e, h4, hx⟩ | ⟨p4, v4, h4, h⟩
  · cases hx
  obtain ⟨g4, b4⟩ := renameEntries_pt h4
  rcases bind_inv h with ⟨e, h5, hx⟩ | ⟨⟨_, s5⟩, v5, h5, h⟩
  · cases hx
  obtain ⟨g5, b5⟩ := runCi_tag (kd_setNode _) h5
  obtain ⟨hx, rfl⟩ := pure_inv h
  simp only [Except.ok.injEq, Prod.mk.injEq] at hx
  obtain ⟨rfl, rfl, rfl⟩ := hx
  exact ⟨g4, R.tag g5 (b5 (b4 b3))⟩

/-- What a successful `RedDirEntryRename` has looked up, and the `CINODE` variables after it. -/
theorem dirRename_inv {p : Parents} {sn dn : List Byte} {v v' : Vol} {x : Option (Parents × Cinode × Option Cinode)} (hb : v.branched = true)
    (h : dirRename c p sn dn v = (.ok x, v')) :
    ∃ k i p1 v1 y p2 v2 d j v3, onSrcP p (dirLookup c sn) v = (.ok (.ok (.found k i), p1), v1) ∧
      onDstP p1 (dirLookup c dn) v1 = (.ok (y, p2), v2) ∧ renameTarget c y v2 = (.ok (d, j), v3) ∧
      ((c.renameAtomic = true ∧ i = j ∧ x = none) ∨ (¬ (c.renameAtomic = true ∧ i = j) ∧ ∃ p' src dst, x = some (p', src, dst) ∧ PT p p' ∧ Ready v' src i)) := by
  unfold dirRename at h
  split at h
  · cases h
  split at h
  · cases h
  dsimp only at h
  split at h
  · cases h
  rcases bind_inv h with ⟨e, h1, hx⟩ | ⟨⟨r1, p1⟩, v1, h1, h⟩
  · cases hx
  obtain ⟨g1, b1⟩ := onSrcP_pt (dirLookup_kd _) h1
  rcases bind_inv h with ⟨e, h2, hx⟩ | ⟨x2, v2, h2, hh⟩
  · cases hx
  clear h
  have e2 : r1 = .ok x2 ∧ v2 = v1 := by
    have h2 : (r1, v1) = (Except.ok x2, v2) := h2
    exact ⟨(Prod.mk.inj h2).1, (Prod.mk.inj h2).2.symm⟩
  obtain ⟨rfl, rfl⟩ := e2
  have h := hh
  clear hh
  rcases x2 with ⟨k, i⟩ | fr
  swap
  · cases h
  dsimp only at h
  rcases bind_inv h with ⟨e, h3, hx⟩ | ⟨⟨y, p3⟩, v3, h3, h⟩
  · cases hx
  obtain ⟨g3, b3⟩ := onDstP_pt (dirLookup_kd _) h3
  rcases bind_inv h with ⟨e, h4, hx⟩ | ⟨⟨d, j⟩, v4, h4, h⟩
  · cases hx
  have b4 := renameTarget_kb (c := c) y v3 (b3 (b1 hb))
  rw [h4] at b4
  refine ⟨k, i, p1, v2, y, p3, v3, d, j, v4, h1, h3, h4, ?_⟩
  dsimp only at h
  split at h
  · next he =>
    obtain ⟨hx, -⟩ := pure_inv h
    simp only [Except.ok.injEq] at hx
    exact Or.inl ⟨he.1, he.2, hx⟩
  · next he =>
    rcases bind_inv h with ⟨e, h5, hx⟩ | ⟨⟨p', src, dst⟩, v5, h5, h⟩
    · cases hx
    obtain ⟨hx, rfl⟩ := pure_inv h
    simp only [Except.ok.injEq] at hx
    obtain ⟨g5, R⟩ := renameMove_inv b4 h5
    exact Or.inr ⟨he, p', src, dst, hx, (g1.trans g3).trans g5, R⟩

/-- What `CoreRename` has looked up. -/
theorem rename_pre (hc : c.Ok) (hp : c.PosixOk) {ps pd : Nat} {sname name : List Byte} (hsn : CStr.Ok sname) (hn : CStr.Ok name) {v v1 v2 v3 v4 v5 : Vol} (h : Inv c (NsOk c) v)
    {sp : Cinode} {dp : Option Cinode} {p1 p2 : Parents} {k i d j : Nat} {y : Except Err LookupRes}
    (h1 : inodeMount c ps .dir true v = (.ok sp, v1))
    (h2 : (if ps = pd then dp = none ∧ v2 = v1 else ∃ dp', dp = some dp' ∧ inodeMount c pd .dir true v1 = (.ok dp', v2)))
    (h3 : onSrcP ⟨sp, dp⟩ (dirLookup c sname) v2 = (.ok (.ok (.found k i), p1), v3))
    (h4 : onDstP p1 (dirLookup c name) v3 = (.ok (y, p2), v4)) (h5 : renameTarget c y v4 = (.ok (d, j), v5)) :
    Has c (files c v) ps (nameOf c sname) i ∧ (((∀ x, ¬ Has c (files c v) pd (nameOf c name) x) ∧ j = 0 ∧ i ≠ 0) ∨
      (Has c (files c v) pd (nameOf c name) j ∧ c.renameAtomic = true)) := by
  rcases mountDir hc h.wf ps true with ⟨e, _, g⟩ | ⟨fs, sp', v1', hds, g, frs, sdt, _⟩
  · rw [g] at h1; cases h1
  rw [g] at h1
  simp only [Prod.mk.injEq, Except.ok.injEq] at h1
  obtain ⟨rfl, rfl⟩ := h1
  have q1 := frs.quiet
  have hi1 := (q1.eff hc h).inv
  have mds := h.now.mdir hds frs
  have both : ∃ fd, Quiet c v1' v2 ∧ Spec.IsDir (files c v) pd fd ∧ PM c v2 ⟨sp', dp⟩ ps pd (dirOf c fs) (dirOf c fd) := by
    by_cases e : ps = pd
    · rw [if_pos e] at h2
      obtain ⟨rfl, rfl⟩ := h2
      exact ⟨fs, .refl hi1.wf, e ▸ hds, ⟨mds, mds, frs.ino, frs.ino.trans e, sdt rfl, sdt rfl, Or.inl ⟨e, rfl, rfl⟩⟩⟩
    · rw [if_neg e] at h2
      obtain ⟨dp', rfl, h2⟩ := h2
      rcases mountDir hc hi1.wf pd true with ⟨er, _, g⟩ | ⟨fd, dp2, v2', hdd, g, frd, ddt, _⟩
      · rw [g] at h2; cases h2
      · rw [g] at h2
        simp only [Prod.mk.injEq, Except.ok.injEq] at h2
        obtain ⟨rfl, rfl⟩ := h2
        have hdd' : Spec.IsDir (files c v) pd fd := ⟨by rw [← q1.files]; exact hdd.1, hdd.2⟩
        have mdd := hi1.now.mdir hdd frd
        exact ⟨fd, frd.quiet, hdd', ⟨mds.frame hi1.wf frd.ch (by rw [frs.ino]; exact e), mdd, frs.ino, frd.ino, sdt rfl, ddt rfl, Or.inr ⟨e, rfl⟩⟩⟩
  obtain ⟨fd, q2, hdd, pm⟩ := both
  have q := q1.trans hc q2
  have hi2 := (q.eff hc h).inv
  have ents : ∀ k, entOf c (files c v) ps k = (dirOf c fs).slot k := h.now.ent hc hp hds
  have entd : ∀ k, entOf c (files c v) pd k = (dirOf c fd).slot k := h.now.ent hc hp hdd
  rcases dirLookup_spec hc hp hi2.wf pm.src hsn with ⟨_, e⟩ | ⟨_, e⟩ | ⟨_, _, r, sp2, e, m1, s1, L⟩
  · rw [onSrcP_run e] at h3; cases h3
  · rw [onSrcP_run e] at h3; cases h3
  rw [onSrcP_run e] at h3
  simp only [Prod.mk.injEq, Except.ok.injEq] at h3
  obtain ⟨⟨rfl, rfl⟩, rfl⟩ := h3
  have pm1 := pm.roSrc m1 s1
  have hHi : Has c (files c v) ps (nameOf c sname) i := ⟨k, by rw [ents]; exact L⟩
  refine ⟨hHi, ?_⟩
  rcases dirLookup_spec hc hp hi2.wf pm1.dst hn with ⟨_, e⟩ | ⟨_, e⟩ | ⟨_, _, r, dp', e, m2, s2, L'⟩
  · rw [onDstP_run e] at h4
    simp only [Prod.mk.injEq, Except.ok.injEq] at h4
    obtain ⟨⟨rfl, rfl⟩, rfl⟩ := h4
    cases h5
  · rw [onDstP_run e] at h4
    simp only [Prod.mk.injEq, Except.ok.injEq] at h4
    obtain ⟨⟨rfl, rfl⟩, rfl⟩ := h4
    cases h5
  rw [onDstP_run e] at h4
  simp only [Prod.mk.injEq, Except.ok.injEq] at h4
  obtain ⟨⟨rfl, rfl⟩, rfl⟩ := h4
  rcases r with ⟨x, x2⟩ | _ | k
  · right
    by_cases hat : c.renameAtomic = true
    · rw [show renameTarget c (.ok (.found x x2)) v2 = (.ok (x, x2), v2) by simp only [renameTarget, hat, if_true]; rfl] at h5
      simp only [Prod.mk.injEq, Except.ok.injEq] at h5
      obtain ⟨⟨rfl, rfl⟩, rfl⟩ := h5
      exact ⟨⟨x, by rw [entd]; exact L'⟩, hat⟩
    · rw [show renameTarget c (.ok (.found x x2)) v2 = (.error .eexist, v2) by simp only [renameTarget, hat]; rfl] at h5
      cases h5
  · cases h5
  · left
    rw [show renameTarget c (.ok (.missing (some k))) v2 = (.ok (k, 0), v2) from rfl] at h5
    simp only [Prod.mk.injEq, Except.ok.injEq] at h5
    obtain ⟨⟨rfl, rfl⟩, rfl⟩ := h5
    refine ⟨fun x ⟨k', hk⟩ => L'.1 k' x (by rw [← entd]; exact hk), rfl, ?_⟩
    have := pm.src.ok.ino _ _ _ L
    rintro rfl; simp [Conf.inodeValid] at this

theorem has_uniq (hc : c.Ok) (hp : c.PosixOk) {v : Vol} (hi : Inv c (NsOk c) v) {p : Nat} {nm : List Byte} {i j : Nat} (h1 : Has c (files c v) p nm i) (h2 : Has c (files c v) p nm j) : i = j := by
  obtain ⟨k, hk⟩ := h1
  obtain ⟨m, hm⟩ := h2
  have hd : ∃ f, Spec.IsDir (files c v) p f := by
    unfold entOf at hk
    rcases hf : files c v p with _ | f
    · rw [hf] at hk; cases hk
    · rw [hf] at hk
      dsimp only at hk
      by_cases hm : f.mode = modeDir
      · exact ⟨f, hf, hm⟩
      · simp [hm] at hk
  obtain ⟨f, hd⟩ := hd
  have hent : ∀ k, entOf c (files c v) p k = (dirOf c f).slot k := hi.now.ent hc hp hd
  have hmk := (hi.now.dirs p f hd).2.uniq m k j i _ (by rw [← hent]; exact hm) (by rw [← hent]; exact hk)
  subst hmk
  rw [hk] at hm
  simp only [Option.some.injEq, Prod.mk.injEq] at hm
  exact hm.1

theorem rename_marks (hc : c.Ok) (hp : c.PosixOk) {ps pd : Nat} {sname name : List Byte} (hsn : CStr.Ok sname) (hn : CStr.Ok name) {s s' : St} {r : Except Err Unit} (hi : Inv c (NsOk c) s.v)
    (h : renameSub c clk ps sname pd name s = (r, s')) :
    Marked c clk (fun _ L => (L = [] ∧ SameFile c (files c s.v) ps (nameOf c sname) pd (nameOf c name)) ∨
      ∃ i, Has c (files c s.v) ps (nameOf c sname) i ∧ ¬ SameFile c (files c s.v) ps (nameOf c sname) pd (nameOf c name) ∧
        L = [⟨i, false, false, true⟩, ⟨pd, false, true, true⟩] ++ (if ps = pd then [] else [⟨ps, false, true, true⟩])) s r s' := by
  rcases rwOp_inv h with ⟨e, rfl, rfl⟩ | h
  · exact .fail rfl rfl
  rcases bind_inv h with ⟨e, h1, rfl⟩ | ⟨sp, s1, h1, hh⟩
  · exact .fail rfl (lift_inv h1).2
  clear h
  obtain ⟨h1, t1⟩ := lift_inv h1
  have R1 := mount_ready (files_at hi) h1
  have both : (∃ e, r = .error e ∧ s'.t = s.t) ∨ ∃ dp s2, s2.t = s.t ∧ s2.v.branched = true ∧
      (if ps = pd then dp = none ∧ s2.v = s1.v else ∃ dp', dp = some dp' ∧ inodeMount c pd .dir true s1.v = (.ok dp', s2.v)) ∧
      (∀ dp', dp = some dp' → Ready s2.v dp' pd) ∧ (do
        match ← lift (dirRename c ⟨sp, dp⟩ sname name) with
        | none => pure ()
        | some (p, src, dst) => do
          (match dst with
           | none => pure ()
           | some dst => lift (criticalAssert (inodeLinkDec c dst)))
          put c clk src false false true
          put c clk p.getDst false true true
          put c clk (if p.dst.isSome then p.src else { p.src with nodeBuf := none }) false true true : TM Unit) s2 = (r, s') := by
    dsimp only at hh
    split at hh
    · next e =>
      right
      rcases bind_inv hh with ⟨e, h2, rfl⟩ | ⟨dp, s2, h2, h⟩
      · cases (pure_inv h2).1
      obtain ⟨hx, rfl⟩ := pure_inv h2
      simp only [Except.ok.injEq] at hx
      subst hx
      exact ⟨none, s2, t1, R1.vol, by rw [if_pos e]; exact ⟨rfl, rfl⟩, fun _ hx => (by cases hx), h⟩
    · next e =>
      rcases bind_inv hh with ⟨e, h2, rfl⟩ | ⟨dp, s2, h2, h⟩
      · left; exact ⟨e, rfl, (lift_inv h2).2.trans t1⟩
      right
      obtain ⟨h2, t2⟩ := lift_inv h2
      have R2 := mount_ready R1.idle h2
      exact ⟨some dp, s2, t2.trans t1, R2.vol, by rw [if_neg e]; exact ⟨dp, rfl, h2⟩, fun _ hx => by cases hx; exact R2, h⟩
  rcases both with ⟨e, rfl, ht⟩ | ⟨dp, s2, t2, b2, h2, R2, h⟩
  · exact .fail rfl ht
  clear hh
  rcases bind_inv h with ⟨e, h3, rfl⟩ | ⟨x, s3, h3, hh⟩
  · exact .fail rfl ((lift_inv h3).2.trans t2)
  clear h
  obtain ⟨h3, t3⟩ := lift_inv h3
  obtain ⟨k, i, p1, w1, y, p2, w2, d, j, w3, g1, g2, g3, D⟩ := dirRename_inv b2 h3
  obtain ⟨hHi, hj⟩ := rename_pre hc hp hsn hn hi h1 h2 g1 g2 g3
  rcases D with ⟨hat, hij, rfl⟩ | ⟨hne, p', src, dst, rfl, P, R⟩
  · obtain ⟨rfl, rfl⟩ := pure_inv hh
    rcases hj with ⟨_, h0, h1⟩ | ⟨hHj, _⟩
    · exact absurd (hij.trans h0) h1
    refine ⟨fun e he => (by cases he), fun a ha => ⟨[], Or.inl ⟨rfl, i, hHi, hij ▸ hHj⟩, fun hx => absurd rfl hx, by rw [stamps_nil]; exact t3.trans t2⟩⟩
  have hns : ¬ SameFile c (files c s.v) ps (nameOf c sname) pd (nameOf c name) := by
    rintro ⟨x, hx1, hx2⟩
    have hix := has_uniq hc hp hi hHi hx1
    subst hix
    rcases hj with ⟨h0, _⟩ | ⟨hHj, hat⟩
    · exact h0 _ hx2
    · exact hne ⟨hat, has_uniq hc hp hi hx2 hHj⟩
  dsimp only at hh
  have fin : ∃ s4, s4.t = s.t ∧ (s4.v.branched = true ∨ ∃ e, r = .error e ∧ s' = s4) ∧ ((∃ e, r = .error e ∧ s' = s4) ∨ (do
      put c clk src false false true
      put c clk p'.getDst false true true
      put c clk (if p'.dst.isSome then p'.src else { p'.src with nodeBuf := none }) false true true : TM Unit) s4 = (r, s')) := by
    rcases dst with _ | dst
    · exact ⟨s3, t3.trans t2, Or.inl R.vol, Or.inr hh⟩
    · rcases bind_inv hh with ⟨e, h4, rfl⟩ | ⟨u, s4, h4, h⟩
      · exact ⟨_, (lift_inv h4).2.trans (t3.trans t2), Or.inr ⟨e, rfl, rfl⟩, Or.inl ⟨e, rfl, rfl⟩⟩
      · obtain ⟨g4, b4⟩ := kb_inv (criticalAssert_kb (inodeLinkDec_kb _)) h4
        exact ⟨s4, g4.trans (t3.trans t2), Or.inl (b4 R.vol), Or.inr h⟩
  obtain ⟨s4, t4, b4, h⟩ := fin
  rcases h with ⟨e, rfl, rfl⟩ | h
  · exact .fail rfl t4
  rcases b4 with b4 | ⟨e, rfl, rfl⟩
  swap
  · exact .fail rfl t4
  rcases bind_inv h with ⟨e, h5, rfl⟩ | ⟨u, s5, h5, hh⟩
  · cases (put_inv h5).1
  obtain ⟨-, v5, t5⟩ := put_inv h5
  clear h
  rcases bind_inv hh with ⟨e, h6, rfl⟩ | ⟨u', s6, h6, h⟩
  · cases (put_inv h6).1
  obtain ⟨-, v6, t6⟩ := put_inv h6
  obtain ⟨rfl, v7, t7⟩ := put_inv h
  refine ⟨fun e he => (by cases he), fun a ha => ⟨_, Or.inr ⟨i, hHi, hns, rfl⟩, fun _ => by rw [v7, v6, v5]; exact b4, ?_⟩⟩
  have RS : Ready s4.v p'.src ps := (R1.vol' b2).tag P.src b4
  rw [t7, t6, t5, t4, putClk_ready (R.vol' b4) rfl]
  by_cases e : ps = pd
  · rw [if_pos e] at h2
    obtain ⟨rfl, -⟩ := h2
    have hd : p'.dst = none := by
      have := P.some
      cases hx : p'.dst
      · rfl
      · rw [hx] at this; cases this
    have RD : Ready s4.v p'.getDst pd := by
      rw [getDst_none hd]; exact e ▸ RS
    rw [putClk_ready RD rfl, if_pos e, putClk_none (by simp [hd]), stamps_append]; rfl
  · rw [if_neg e] at h2
    obtain ⟨dp', rfl, -⟩ := h2
    have hd : p'.dst.isSome = true := P.some
    have RD : Ready s4.v p'.getDst pd := (R2 dp' rfl).tag P.dst b4
    rw [putClk_ready RD rfl, if_neg e, if_pos hd, putClk_ready RS rfl, stamps_append, stamps_append]; rfl

end RedFs.Times
