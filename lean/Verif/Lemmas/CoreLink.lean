import Verif.Lemmas.CoreCreate
set_option linter.unusedSimpArgs false
set_option linter.unusedVariables false
namespace RedFs
open M Bitmap Vol Str

variable {c : Conf} {v v' : Vol} {ci ci' : Cinode} {F F' : Files}

theorem coreLinkSub_full (hc : c.Ok) (hp : c.PosixOk) (p : Nat) {name : List Byte} (hn : CStr.Ok name) (ino : Nat) :
    OpSpecN c (NsOk c) 6 p true (coreLinkSub c p name ino) (Spec.Link c p (nameOf c name) ino) := by
  intro v h hro
  unfold coreLinkSub
  rw [rwOp_run hro]
  rw [run_bind]
  rcases mountDir hc h.wf p false with ⟨e, h1, h2⟩ | ⟨f, pi, v1, hd, h2, fr, _, hnb⟩
  · exact ⟨.error e, v, ⟨by rw [h2], .err (NotDir.ne h1)⟩, Eff.refl h, rfl, Or.inl h1⟩
  obtain ⟨rfl, _⟩ := hnb rfl
  rw [h2]; dsimp only
  rw [run_bind, run_attempt]
  rcases mountFile hc h.wf ino false with ⟨e, h1, h2⟩ | ⟨g, ci, v2, hg, h2, fg, _, hnb⟩
  · rw [h2]; dsimp only
    refine ⟨_, v1, ⟨run_fail _ _, .err (by split <;> first | (simp; done) | exact NotReg.ne h1)⟩, Eff.refl h, rfl, Or.inr ⟨⟨f, hd⟩, ?_⟩⟩
    rcases h1 with ⟨rfl, h1⟩ | ⟨rfl, g, h1⟩
    · exact Or.inl ⟨by simp, h1⟩
    · exact Or.inr (Or.inl ⟨by simp, g, h1⟩)
  obtain ⟨rfl, _⟩ := hnb rfl
  rw [h2]; dsimp only
  have hip : ino ≠ p := by
    rintro rfl; have h1 := hd.1; rw [hg.1] at h1; injection h1 with h1; subst h1
    exact modes_ne (hd.2.symm.trans hg.2)
  by_cases hmax : ci.node.nlink = 65535
  · rw [if_pos hmax]
    exact ⟨.error .emlink, v2, ⟨run_fail _ _, .err (by simp)⟩, Eff.refl h, rfl, Or.inr ⟨⟨f, hd⟩, Or.inr (Or.inr ⟨g, hg, Or.inl ⟨rfl, by rw [← fg.nlink]; exact hmax⟩⟩)⟩⟩
  rw [if_neg hmax]
  have hgn : (graphOf c (files c v2)).node ino = some ⟨false, g.nlink, g.parent⟩ := by
    rw [node_of hg.1, hg.2]; rfl
  have hi2 : ino ≠ 2 := by
    rintro rfl; rw [h.now.graph.root] at hgn; cases hgn
  have hlt : g.nlink < 65535 := by
    have := (h.now.graph.nlink ino _ hgn hi2).2.2
    rw [fg.nlink] at hmax; simp at this; omega
  have md := h.now.mdir hd fr
  have hpi := fr.ino
  have hent : ∀ k, entOf c (files c v2) p k = (dirOf c f).slot k := h.now.ent hc hp hd
  have hcino := fg.ino
  -- branching both
  obtain ⟨pi1, v3, e1, B1⟩ := inodeBranch_spec hc h.wf md.mnt
  have md1 := md.after B1 h.wf
  have hpi1 : pi1.ino = p := by rw [B1.ino, hpi]
  have m1 : Mnt c v3 ci := B1.ch.mnt ci (by rw [hcino, hpi]; exact hip) fg.mnt
  obtain ⟨ci2, v4, e2, B2⟩ := inodeBranch_spec hc B1.ch.wf m1
  have md2 := md1.frame B1.ch.wf B2.ch (by rw [hpi1, hcino]; exact fun e => hip e.symm)
  have hci2 : ci2.ino = ino := by rw [B2.ino, hcino]
  have ch4 : Ch c v2 v4 (fun j => j = ino ∨ j = p) :=
    (B1.ch.mono (fun j hj => Or.inr (by rw [hj, hpi]))).trans hc (B2.ch.mono (fun j hj => Or.inl (by rw [hj, hcino])))
  have hF4 : ∀ j, files c v4 j = files c v2 j := fun j => (B2.same j).trans (B1.same j)
  have ht4 : tot v4 = tot v2 := by rw [B2.tot, B1.tot]
  have hfb4 : freeBlockCount c v4 = freeBlockCount c v2 := by
    unfold freeBlockCount; rw [ch4.useReserved, B2.free, B1.free]
  rw [run_bind, e1]; dsimp only
  rw [run_bind, e2]; dsimp only
  rw [run_bind]
  have bad : ∀ (e : Err) (v5 : Vol), Ch c v4 v5 (· = p) → (∀ j, files c v5 j = files c v4 j) → tot v5 = tot v4 →
      Eff c (NsOk c) v2 v5 ∧ files c v5 = files c v2 := by
    intro e v5 ch5 hF5 ht5
    have hF : files c v5 = files c v2 := funext fun j => (hF5 j).trans (hF4 j)
    have ch := ch4.trans hc (ch5.mono fun j hj => Or.inr hj)
    exact ⟨⟨h.step hc ch (by rw [hF]; exact h.now) (by rw [ht5, ht4]; exact h.rsv), ch.step, ch.readOnly,
      ((B1.kp.trans B2.kp).trans ch5.kp).reg (by rintro j rfl; exact Or.inr (Or.inl ⟨f, by rw [hF]; exact hd⟩))⟩, hF⟩
  have why : ∀ {e : Err}, Spec.NoEntry c (files c v2) p (nameOf c name) e → (∃ f, Spec.IsDir (files c v2) p f) ∧
      ((e = .ebadf ∧ files c v2 ino = none) ∨ (e = .eperm ∧ ∃ f, Spec.IsDir (files c v2) ino f) ∨
       ∃ f, Spec.IsReg (files c v2) ino f ∧ ((e = .emlink ∧ f.nlink = 65535) ∨ (f.nlink < 65535 ∧ Spec.NoEntry c (files c v2) p (nameOf c name) e))) :=
    fun hh => ⟨⟨f, hd⟩, Or.inr (Or.inr ⟨g, hg, Or.inr ⟨hlt, hh⟩⟩)⟩
  have hpd : pi1.dirty = true := B1.dirty
  rcases dirCreate_spec hc hp B2.ch.wf md2 hpd (i := ci2.ino) hn (by rw [hci2]; exact files_valid hc h.wf (by rw [hg.1]; rfl)) with ⟨er, hb, e4⟩ | ⟨hok, ⟨k, j, pi4, e4, hs⟩ | ⟨hno, ⟨pi4, e4, hfull, hfull'⟩ | ⟨pi4, v5, e4, E, ht, h6⟩ | ⟨k, pi4, v5, f', e4, hkn, hkm, hks, U, m5, ht, hr⟩⟩⟩
  · obtain ⟨E, hF⟩ := bad er v4 (Ch.refl B2.ch.wf) (fun _ => rfl) rfl
    exact ⟨.error er, v4, ⟨by rw [runCi_err e4], .err (BadName.ne hb)⟩, E, hF, Or.inr (why (Or.inl hb))⟩
  · obtain ⟨E, hF⟩ := bad .eexist v4 (Ch.refl B2.ch.wf) (fun _ => rfl) rfl
    exact ⟨.error .eexist, v4, ⟨by rw [runCi_err e4], .err (by simp)⟩, E, hF, Or.inr (why (Or.inr ⟨hok, Or.inl ⟨rfl, j, k, by rw [hent]; exact hs⟩⟩))⟩
  · obtain ⟨E, hF⟩ := bad .enospc v4 (Ch.refl B2.ch.wf) (fun _ => rfl) rfl
    exact ⟨.error .enospc, v4, ⟨by rw [runCi_err e4], fun _ => ⟨Or.inl fun k hk => by rw [hent]; exact hfull' k (by rw [hfull]; exact hk), fun _ => ht4⟩⟩, E, hF, Or.inr (why (Or.inr ⟨hok, Or.inr ⟨rfl, fun j ⟨k, hk⟩ => hno k j (by rw [← hent]; exact hk)⟩⟩))⟩
  · have chE := E.ch; rw [hpi1] at chE
    obtain ⟨E', hF⟩ := bad .enospc v5 chE (fun j => by
      by_cases ej : j = p
      · rw [ej, ← hpi1, E.file, B2.ch.wf.file md2.mnt]
      · exact chE.files j ej) ht
    exact ⟨.error .enospc, v5, ⟨by rw [runCi_err e4], fun _ => ⟨Or.inr (by rw [← hfb4]; exact h6), fun _ => ht.trans ht4⟩⟩, E', hF, Or.inr (why (Or.inr ⟨hok, Or.inr ⟨rfl, fun j ⟨k, hk⟩ => hno k j (by rw [← hent]; exact hk)⟩⟩))⟩
  · rw [runCi_ok e4]; dsimp only
    rw [run_bind]
    have chE := U.ed.ch; rw [hpi1] at chE
    have m6 : Mnt c v5 ci2 := chE.mnt ci2 (by rw [hci2]; exact hip) B2.mnt
    obtain ⟨ci6, v6, e6, E6, m7, _, _, _, t1, t2, _, tt⟩ := setMeta_file hc chE.wf m6 B2.dirty (fun n => { n with nlink := n.nlink + 1 }) rfl rfl rfl rfl
    rw [runCi_ok e6]; dsimp only
    have ch6 := E6.ch; rw [hci2] at ch6
    have hcf : ciFile c v5 ci2 = g := by
      have := chE.wf.file m6
      rw [hci2, chE.files ino hip, hF4, hg.1] at this; injection this with this; exact this.symm
    have hnd : ci2.node.nlink = g.nlink ∧ ci2.node.pinode = g.parent := by rw [← hcf]; exact ⟨rfl, rfl⟩
    have ch : Ch c v2 v6 (fun j => j = ino ∨ j = p) := (ch4.trans hc (chE.mono fun j hj => Or.inr hj)).trans hc (ch6.mono fun j hj => Or.inl hj)
    have hFi : files c v6 ino = some { g with nlink := g.nlink + 1 } := by
      have := E6.file; rw [hci2, hcf] at this
      rw [this, hnd.1, hnd.2]
    have hFp : files c v6 p = some f' := by
      rw [ch6.files p (fun e => hip e.symm)]
      have := U.ed.file; rwa [hpi1] at this
    have hFo : ∀ j, j ≠ ino → j ≠ p → files c v6 j = files c v2 j := fun j h1 h2 => ch.files j (fun hh => hh.elim h1 h2)
    rw [hci2] at U
    have hl : f'.nlink = f.nlink := by rw [U.nlink, B1.node]; exact fr.nlink
    have hpar : f'.parent = f.parent := by rw [U.parent, B1.node]; exact fr.parent
    have hslot : ∀ m, ((dirOf c f).set k (ino, nameOf c name)).slot m = if m = k then some (ino, nameOf c name) else (dirOf c f).slot m := fun m => rfl
    have hE : ∀ q m, entOf c (files c v6) q m = if q = p ∧ m = k then some (ino, nameOf c name) else entOf c (files c v2) q m := by
      intro q m
      by_cases e1 : q = p
      · subst e1
        rw [entOf_file hc hp hFp U.file U.ok, hslot, hent]
        by_cases e2 : m = k
        · rw [if_pos e2, if_pos ⟨rfl, e2⟩]
        · rw [if_neg e2, if_neg (fun h => e2 h.2)]
      · rw [if_neg (fun h => e1 h.1)]
        by_cases e2 : q = ino
        · subst e2
          rw [entOf_reg hg, entOf_reg (f := { g with nlink := g.nlink + 1 }) ⟨hFi, hg.2⟩]
        · exact entOf_congr (hFo q e2 e1) m
    have hk1 : entOf c (files c v2) p k = none := by rw [hent]; exact hks
    have hfree : ∀ j, ¬ Has c (files c v2) p (nameOf c name) j := fun j ⟨k, hk⟩ => hno k j (by rw [← hent]; exact hk)
    have hnode : ∀ j, (graphOf c (files c v6)).node j = if j = ino then some ⟨false, g.nlink + 1, g.parent⟩ else (graphOf c (files c v2)).node j := by
      intro j
      by_cases e1 : j = ino
      · subst e1; rw [if_pos rfl, node_of hFi]
        simp [hg.2, modes_ne.symm]
      · rw [if_neg e1]
        by_cases e2 : j = p
        · subst e2; rw [node_of hFp, node_of hd.1, U.file.mode, hd.2, hl, hpar]
        · show (files c v6 j).map _ = (files c v2 j).map _
          rw [hFo j e1 e2]
    have hG : NsOk c (files c v6) := by
      refine ⟨?_, ?_⟩
      · intro q x hx
        by_cases e1 : q = p
        · subst e1
          have := hx.1; rw [hFp] at this; injection this with this; subst this
          rw [U.file.dirOf hc hp U.ok]; exact ⟨U.file, U.ok⟩
        by_cases e2 : q = ino
        · subst e2
          have := hx.1; rw [hFi] at this; injection this with this; subst this
          exact absurd (hx.2.symm.trans hg.2) modes_ne
        · exact h.now.dirs q x ⟨by rw [← hFo q e2 e1]; exact hx.1, hx.2⟩
      · refine h.now.graph.link (i := ino) (p := p) (k := k) hgn rfl hlt (node_of hd.1) (by simp [hd.2]) (slot_none.2 hk1) hnode ?_
        intro q m
        show (entOf c _ q m).map _ = if _ then _ else (entOf c _ q m).map _
        rw [hE]
        split <;> rfl
    refine ⟨.ok (), v6, ⟨rfl, .ok _⟩, ⟨h.step hc ch hG ?_, ch.step, ch.readOnly, (((B1.kp.trans B2.kp).trans chE.kp).trans
        (E6.ch.kpAll (fun hh => by rw [E6.file] at hh; cases hh) (fun hh => by rw [chE.wf.file m6] at hh; cases hh) tt)).reg
        (by rintro j rfl; exact Or.inr (Or.inl ⟨f', hFp, U.file.mode⟩))⟩, hok, hfree, g, hg, hlt, hFi, ⟨f, f', hd, ⟨hFp, U.file.mode⟩, hl, hpar⟩, hFo, bound_new hc hp hfree hk1 hE⟩
    have hur : v4.useReserved = false := by rw [ch4.useReserved]; exact h.idle
    have ht6 : tot v6 = tot v5 := by unfold tot; rw [t1, t2]
    have := h.rsv
    rcases hr hur with t | t <;> omega

theorem coreLinkSub_spec (hc : c.Ok) (hp : c.PosixOk) (p : Nat) {name : List Byte} (hn : CStr.Ok name) (ino : Nat) :
    OpSpec c (NsOk c) (coreLinkSub c p name ino) (Spec.Link c p (nameOf c name) ino) := (coreLinkSub_full hc hp p hn ino).spec

theorem NsOk.empty_size (hc : c.Ok) (hp : c.PosixOk) (h : NsOk c F) {i : Nat} {f : AFile} (hd : Spec.IsDir F i f) : f.size = 0 ↔ Spec.Empty c F i := by
  obtain ⟨h1, h2⟩ := h.dirs i f hd
  have hent := h.ent hc hp hd
  constructor
  · intro hz k
    rw [hent]
    have hn : (dirOf c f).n = 0 := by
      have h3 := h1.size; rw [hz] at h3
      by_contra hne
      have := dirSize_le hp (n := (dirOf c f).n) (k := 0)
      have h4 := this.2 (by omega)
      have := ds_ge hp; omega
    exact h2.out k (by omega)
  · intro he
    have hn : (dirOf c f).n = 0 := by
      by_contra hne
      exact h2.last (by omega) (by rw [← hent]; exact he _)
    rw [h1.size, hn]; rfl

theorem coreUnlinkSub_spec (hc : c.Ok) (hp : c.PosixOk) (p : Nat) {name : List Byte} (hn : CStr.Ok name) :
    OpSpec c (NsOk c) (coreUnlinkSub c p name) (Spec.Unlink c p (nameOf c name)) := by
  intro v h hro
  unfold coreUnlinkSub
  rw [rwOp_run hro]
  rw [run_bind]
  rcases mountDir hc h.wf p false with ⟨e, h1, h2⟩ | ⟨f, pi, v1, hd, h2, fr, _, hnb⟩
  · exact ⟨.error e, v, by rw [h2], Eff.refl h, rfl, Or.inl h1⟩
  obtain ⟨rfl, _⟩ := hnb rfl
  rw [h2]; dsimp only
  rw [run_bind]
  have md := h.now.mdir hd fr
  have hpi := fr.ino
  have hent : ∀ k, entOf c (files c v1) p k = (dirOf c f).slot k := h.now.ent hc hp hd
  rcases dirLookup_spec hc hp h.wf md hn with ⟨g, e⟩ | ⟨g, e⟩ | ⟨g1, g2, r, pi1, e, m1, s1, L⟩
  · exact ⟨.error .einval, v1, by rw [runCi_err e], Eff.refl h, rfl, Or.inr ⟨⟨f, hd⟩, Or.inl (Or.inl ⟨g, rfl⟩)⟩⟩
  · exact ⟨.error .enametoolong, v1, by rw [runCi_err e], Eff.refl h, rfl, Or.inr ⟨⟨f, hd⟩, Or.inl (Or.inr ⟨g, rfl⟩)⟩⟩
  rw [runCi_ok e]; dsimp only
  rcases r with ⟨k, i⟩ | fr0
  swap
  · exact ⟨.error .enoent, v1, run_fail _ _, Eff.refl h, rfl, Or.inr ⟨⟨f, hd⟩, Or.inr (Or.inl ⟨rfl, fun j ⟨k, hk⟩ => L.1 k j (by rw [← hent]; exact hk)⟩)⟩⟩
  have hk : entOf c (files c v1) p k = some (i, nameOf c name) := by rw [hent]; exact L
  have hks : (graphOf c (files c v1)).slot p k = some i := slot_some.2 ⟨_, hk⟩
  have md1 := md.ro m1 s1
  have hpi1 : pi1.ino = p := by rw [s1.ino, hpi]
  obtain ⟨pi2, v2, e2, B⟩ := inodeBranch_spec hc h.wf md1.mnt
  have md2 := md1.after B h.wf
  have hpi2 : pi2.ino = p := by rw [B.ino, hpi1]
  dsimp only
  rw [run_bind, e2]; dsimp only
  obtain ⟨hi2, hlive⟩ := h.now.graph.live p k i hks
  -- the inode referred to
  obtain ⟨g, hg⟩ : ∃ g, files c v1 i = some g := by
    change ((files c v1 i).map _).isSome = true at hlive
    rw [Option.isSome_map] at hlive
    exact Option.isSome_iff_exists.1 hlive
  have hg2 : files c v2 i = some g := by rw [B.same]; exact hg
  rw [run_bind]
  rcases inodeMount_spec hc B.ch.wf i .either false with ⟨h1, h2⟩ | ⟨g', h1, ⟨e, h2, h3⟩ | ⟨_, ci, v3, h3, fc, _, hv3⟩⟩
  · rw [hg2] at h1; cases h1
  · cases h2
  rw [hg2] at h1; injection h1 with h1; subst h1
  obtain ⟨rfl, _⟩ := hv3 rfl
  rw [h3]; dsimp only
  have hmode := files_mode h.wf hg
  have hcidir : ci.dir = decide (g.mode = modeDir) := fc.dir
  have chB := B.ch; rw [hpi1] at chB
  have hF2 : files c v3 = files c v1 := funext B.same
  have Eb : Eff c (NsOk c) v1 v3 := ⟨h.step hc chB (by rw [hF2]; exact h.now) (by rw [B.tot]; exact h.rsv), chB.step, chB.readOnly, (B.kp (D := fun _ => False)).reg fun _ hh => hh.elim⟩
  by_cases hne : ci.dir = true ∧ 0 < ci.node.size
  · rw [if_pos hne]
    have hgd : g.mode = modeDir := by rw [hcidir] at hne; exact of_decide_eq_true hne.1
    refine ⟨.error .enotempty, v3, run_fail _ _, Eb, hF2, Or.inr ⟨⟨f, hd⟩, Or.inr (Or.inr ⟨i, g, ⟨k, hk⟩, hg, Or.inl ⟨rfl, hgd, ?_⟩⟩)⟩⟩
    rw [← h.now.empty_size hc hp ⟨hg, hgd⟩, ← fc.size]; omega
  rw [if_neg hne]
  have hempty : Spec.Empty c (files c v1) i := by
    rcases hmode with hm | hm
    · exact entOf_reg ⟨hg, hm⟩
    · rw [← h.now.empty_size hc hp ⟨hg, hm⟩, ← fc.size]
      by_contra hz
      exact hne ⟨by rw [hcidir]; exact decide_eq_true hm, by omega⟩
  have hip : i ≠ p := by
    rintro rfl
    have := hempty k; rw [hk] at this; cases this
  -- the reserve
  have hur3 : v3.useReserved = false := by rw [chB.useReserved]; exact h.idle
  obtain ⟨b, hb⟩ : ∃ b, setUseReserved c true v3 = (.ok (), { v3 with useReserved := b }) := by
    unfold setUseReserved
    split
    · exact ⟨_, rfl⟩
    · exact ⟨false, by rw [← hur3]; rfl⟩
  have hset : ∀ v' : Vol, v'.useReserved = b → setUseReserved c false v' = (.ok (), { v' with useReserved := false }) := by
    intro v' hv'
    unfold setUseReserved
    split
    · rfl
    · next hh =>
      unfold setUseReserved at hb; rw [if_neg hh] at hb
      have : v3 = { v3 with useReserved := b } := (Prod.mk.inj hb).2
      have hbf : b = false := by rw [this] at hur3; exact hur3
      rw [hbf] at hv'; rw [← hv']; rfl
  have hwb := B.ch.wf.useRes b
  have mdb : MDir c { v3 with useReserved := b } pi2 (dirOf c f) := ⟨md2.mnt.useRes b, md2.file, md2.ok⟩
  rw [run_bind, hb]; dsimp only
  rw [run_bind]
  have hks' : (dirOf c f).slot k ≠ none := by rw [← hent, hk]; simp
  rcases dirDelete_spec hc hp hwb mdb B.dirty hks' with ⟨pi4, v4, e4, D, _, _⟩ | ⟨pi4, v4, f', e4, U, ht⟩
  · rw [onCi_eq e4]; dsimp only
    rw [run_bind, hset _ D.upd.ed.ch.useReserved]; dsimp only
    have chE := D.upd.ed.ch; rw [hpi2] at chE
    have ch := chB.trans hc (chE.reserved hc B.ch.wf hur3)
    have hF : files c { v4 with useReserved := false } = files c v1 := by
      rw [← hF2]
      funext j
      by_cases ej : j = p
      · rw [ej, ← hpi2]
        exact (D.upd.ed.file).trans (hwb.file mdb.mnt).symm
      · exact chE.files j ej
    refine ⟨.error .enospc, { v4 with useReserved := false }, rfl, ⟨h.step hc ch (by rw [hF]; exact h.now) ?_, ch.step, ch.readOnly, ch.kp.reg (by rintro j rfl; exact Or.inr (Or.inl ⟨f, by rw [hF]; exact hd⟩))⟩, hF, Or.inr ⟨⟨f, hd⟩, Or.inr (Or.inr ⟨i, g, ⟨k, hk⟩, hg, Or.inr ⟨rfl, hempty⟩⟩)⟩⟩
    have : tot { v4 with useReserved := false } = tot v1 := by
      have := D.tot; exact this.trans B.tot
    rw [this]; exact h.rsv
  · rw [onCi_eq e4]; dsimp only
    rw [run_bind, hset _ U.ed.ch.useReserved]; dsimp only
    have chE := U.ed.ch; rw [hpi2] at chE
    have chR := chE.reserved hc B.ch.wf hur3
    have hFi4 : files c { v4 with useReserved := false } ci.ino = some g := by
      rw [fc.ino, chR.files i hip]; exact hg2
    have m4 : Mnt c { v4 with useReserved := false } ci := chR.mnt ci (by rw [fc.ino]; exact hip) fc.mnt
    obtain ⟨v5, e5, ch5, hF5, ht5, kp5⟩ := inodeLinkDec_spec hc chR.wf m4 hFi4
    rw [fc.ino] at ch5 hF5
    have hrun : (do ofExcept (.ok ()); criticalAssert (inodeLinkDec c ci) : VM Unit) { v4 with useReserved := false } = (.ok (), v5) := by
      rw [run_bind]
      show criticalAssert (inodeLinkDec c ci) { v4 with useReserved := false } = _
      unfold criticalAssert
      simp only [run_bind, run_attempt, e5]; rfl
    have ch : Ch c v1 v5 (fun j => j = i ∨ j = p) := ((chB.mono fun j hj => Or.inr hj).trans hc (chR.mono fun j hj => Or.inr hj)).trans hc (ch5.mono fun j hj => Or.inl hj)
    have hFp : files c v5 p = some f' := by
      rw [ch5.files p (fun e => hip e.symm)]
      have := U.ed.file; rwa [hpi2] at this
    have hFo : ∀ j, j ≠ i → j ≠ p → files c v5 j = files c v1 j := fun j h1 h2 => ch.files j (fun hh => hh.elim h1 h2)
    have hl : f'.nlink = f.nlink := by rw [U.nlink, B.node, s1.node]; exact fr.nlink
    have hpar : f'.parent = f.parent := by rw [U.parent, B.node, s1.node]; exact fr.parent
    have hE : ∀ q m, entOf c (files c v5) q m = if q = p ∧ m = k then none else entOf c (files c v1) q m := by
      intro q m
      by_cases e1 : q = p
      · subst e1
        rw [entOf_file hc hp hFp U.file U.ok, hent]
        show (if m = k then none else (dirOf c f).slot m) = _
        by_cases e2 : m = k
        · rw [if_pos e2, if_pos ⟨rfl, e2⟩]
        · rw [if_neg e2, if_neg (fun h => e2 h.2)]
      · rw [if_neg (fun h => e1 h.1)]
        by_cases e2 : q = i
        · subst e2
          rw [hempty m]
          unfold entOf; rw [hF5]
          by_cases hl1 : 1 < g.nlink
          · rw [if_pos hl1]
            have := hempty m
            unfold entOf at this; rw [hg] at this
            exact this
          · rw [if_neg hl1]
        · exact entOf_congr (hFo q e2 e1) m
    have hnode : ∀ j, (graphOf c (files c v5)).node j = if j = i then (if 1 < g.nlink then some ⟨decide (g.mode = modeDir), g.nlink - 1, g.parent⟩ else none) else (graphOf c (files c v1)).node j := by
      intro j
      by_cases e1 : j = i
      · subst e1; rw [if_pos rfl]
        show (files c v5 j).map _ = _
        rw [hF5]
        split <;> rfl
      · rw [if_neg e1]
        by_cases e2 : j = p
        · subst e2; rw [node_of hFp, node_of hd.1, U.file.mode, hd.2, hl, hpar]
        · show (files c v5 j).map _ = (files c v1 j).map _
          rw [hFo j e1 e2]
    have hdir1 : g.mode = modeDir → files c v5 i = none := by
      intro hm
      rw [hF5, if_neg]
      have := h.now.graph.one i _ (node_of hg) (by simp [hm])
      simp at this; omega
    have hG : NsOk c (files c v5) := by
      refine ⟨?_, ?_⟩
      · intro q x hx
        by_cases e1 : q = p
        · subst e1
          have := hx.1; rw [hFp] at this; injection this with this; subst this
          rw [U.file.dirOf hc hp U.ok]; exact ⟨U.file, U.ok⟩
        by_cases e2 : q = i
        · subst e2
          rcases hmode with hm | hm
          · have hx1 := hx.1; rw [hF5] at hx1
            split at hx1
            · injection hx1 with hx1
              exact absurd (hx.2.symm.trans (by rw [← hx1]; exact hm)) modes_ne
            · cases hx1
          · have hx1 := hx.1; rw [hdir1 hm] at hx1; cases hx1
        · exact h.now.dirs q x ⟨by rw [← hFo q e2 e1]; exact hx.1, hx.2⟩
      · refine h.now.graph.unlink (i := i) (p := p) (k := k) (node_of hg) hks (fun m => slot_none.2 (hempty m)) hnode ?_
        intro q m
        show (entOf c _ q m).map _ = if _ then _ else (entOf c _ q m).map _
        rw [hE]
        split <;> rfl
    refine ⟨.ok (), v5, hrun, ⟨h.step hc ch hG ?_, ch.step, ch.readOnly, ((chB.kp.trans chR.kp).trans (kp5 _)).reg (by rintro j rfl; exact Or.inr (Or.inl ⟨f', hFp, U.file.mode⟩))⟩, i, g, ⟨k, hk⟩, hg, hempty, hF5, ⟨f, f', hd, ⟨hFp, U.file.mode⟩, hl, hpar⟩, hFo, bound_del hc hp hk ?_ hE⟩
    · have h1 : tot { v4 with useReserved := false } = tot v4 := rfl
      have h2 : tot { v3 with useReserved := b } = tot v3 := rfl
      have := h.rsv
      have := B.tot
      omega
    · intro m j hm
      exact (h.now.dirs p f hd).2.uniq m k j i _ (by rw [← hent]; exact hm) (by rw [← hent]; exact hk)

/-- `red_lookup`. -/
theorem coreLookup_spec (hc : c.Ok) (hp : c.PosixOk) {v : Vol} (h : Inv c (NsOk c) v) (p : Nat) {name : List Byte} (hn : CStr.Ok name) :
    ∃ r, coreLookup c p name v = (r, v) ∧ Spec.Lookup c p (nameOf c name) (files c v) r := by
  unfold coreLookup
  rw [whenMounted_run h.mounted, run_bind]
  rcases mountDir hc h.wf p false with ⟨e, h1, h2⟩ | ⟨f, pi, v1, hd, h2, fr, _, hnb⟩
  · exact ⟨.error e, by rw [h2], Or.inl h1⟩
  obtain ⟨rfl, _⟩ := hnb rfl
  rw [h2]; dsimp only
  rw [run_bind]
  have md := h.now.mdir hd fr
  have hent : ∀ k, entOf c (files c v1) p k = (dirOf c f).slot k := h.now.ent hc hp hd
  rcases dirLookup_spec hc hp h.wf md hn with ⟨g, e⟩ | ⟨g, e⟩ | ⟨g1, g2, r, pi1, e, m1, s1, L⟩
  · exact ⟨.error .einval, by rw [runCi_err e], Or.inr ⟨⟨f, hd⟩, Or.inl (Or.inl ⟨g, rfl⟩)⟩⟩
  · exact ⟨.error .enametoolong, by rw [runCi_err e], Or.inr ⟨⟨f, hd⟩, Or.inl (Or.inr ⟨g, rfl⟩)⟩⟩
  rw [runCi_ok e]; dsimp only
  rcases r with ⟨k, i⟩ | fr0
  · exact ⟨.ok i, rfl, k, by rw [hent]; exact L⟩
  · exact ⟨.error .enoent, rfl, Or.inr ⟨⟨f, hd⟩, Or.inr ⟨g1, g2, rfl, fun j ⟨k, hk⟩ => L.1 k j (by rw [← hent]; exact hk)⟩⟩⟩

/-- `red_readdir`. -/
theorem coreDirRead_spec (hc : c.Ok) (hp : c.PosixOk) {v : Vol} (h : Inv c (NsOk c) v) (p pos : Nat) :
    ∃ r v', coreDirRead c p pos v = (r, v') ∧ Eff c (NsOk c) v v' ∧ files c v' = files c v ∧ Spec.DirRead c p pos (files c v) r ∧
      (c.atime = false ∨ v.readOnly = true → v' = v) := by
  unfold coreDirRead
  rw [whenMounted_run h.mounted, run_bind]
  simp only [run_get]
  rw [run_bind]
  rcases mountDir hc h.wf p false with ⟨e, h1, h2⟩ | ⟨f, pi, v1, hd, h2, fr, _, hnb⟩
  · exact ⟨.error e, v, by rw [h2], Eff.refl h, rfl, h1, fun _ => rfl⟩
  obtain ⟨rfl, _⟩ := hnb rfl
  rw [h2]; dsimp only
  rw [run_bind]
  have md := h.now.mdir hd fr
  have hent : ∀ k, entOf c (files c v1) p k = (dirOf c f).slot k := h.now.ent hc hp hd
  obtain ⟨r, ci', e, m, s, R⟩ := dirRead_spec hc hp h.wf md pos
  rw [runCi_ok e]; dsimp only
  have hR : Spec.DirRead c p pos (files c v1) (.ok r) := by
    rcases r with ⟨n, _ | ⟨t, i⟩⟩
    · obtain ⟨rfl, R⟩ := R
      exact ⟨⟨f, hd⟩, fun k hk => by rw [hent]; exact R k hk, fun k hk => by rw [hent]; exact (h.now.dirs p f hd).2.out k hk⟩
    · obtain ⟨k, rfl, h1, _, h2, h3⟩ := R
      exact ⟨k, h1, by rw [hent]; exact h2, fun j h4 h5 => by rw [hent]; exact h3 j h4 h5, rfl⟩
  split
  · next hat =>
    obtain ⟨ci2, v2, e2, B⟩ := inodeBranch_spec hc h.wf m
    have hF : files c v2 = files c v1 := funext B.same
    refine ⟨.ok r, v2, ?_, ⟨h.step hc B.ch (by rw [hF]; exact h.now) (by rw [B.tot]; exact h.rsv), B.ch.step, B.ch.readOnly, (B.kp (D := fun _ => False)).reg fun _ hh => hh.elim⟩, hF, hR, ?_⟩
    · rw [run_bind, e2]; rfl
    · rintro (h1 | h1)
      · rw [hat.1] at h1; cases h1
      · rw [hat.2.1] at h1; cases h1
  · exact ⟨.ok r, v1, rfl, Eff.refl h, rfl, hR, fun _ => rfl⟩

/-- The parent of a directory. -/
theorem coreDirParent_spec (hc : c.Ok) (hp : c.PosixOk) {v : Vol} (h : Inv c (NsOk c) v) (p : Nat) :
    (∃ e, Spec.NotDir (files c v) p e ∧ coreDirParent c p v = (.error e, v)) ∨
    ∃ f, Spec.IsDir (files c v) p f ∧ coreDirParent c p v = (.ok f.parent, v) := by
  unfold coreDirParent
  rw [whenMounted_run h.mounted]
  by_cases h2 : p = 2
  · right
    obtain ⟨f, hf, _, hp0⟩ := root_live h.now.graph
    rw [if_pos h2, h2]
    exact ⟨f, hf, by rw [hp0]; rfl⟩
  rw [if_neg h2, run_bind]
  rcases mountDir hc h.wf p false with ⟨e, h1, h2⟩ | ⟨f, pi, v1, hd, h2, fr, _, hnb⟩
  · exact Or.inl ⟨e, h1, by rw [h2]⟩
  obtain ⟨rfl, _⟩ := hnb rfl
  exact Or.inr ⟨f, hd, by rw [h2]; dsimp only; rw [fr.parent]; rfl⟩

end RedFs
