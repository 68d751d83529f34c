import Verif.Lemmas.Refs
/-! References: mounting and giving back inodes, and the calls. -/
set_option linter.unusedSimpArgs false
set_option linter.unusedVariables false
namespace RedFs.Refs
open RedFs M

variable {P Q R E : St → Prop} {c : Cfg} {A B : Caps} {k : Slot}

theorem InvT.mono {t : Nat} {s : St} (h : InvT c A t s) (hj : ∀ j x, Fits c (A j) x → Fits c (B j) x) : InvT c B t s :=
  ⟨h.short, h.bad, h.tmp, h.peak, fun j => hj j _ (h.fits j)⟩
theorem fits_le {n m : Nat} (h : n ≤ m) {x : Option Ptrs} (hx : Fits c (some n) x) : Fits c (some m) x := by
  obtain ⟨p, e, g, l⟩ := hx; exact ⟨p, e, g, Nat.le_trans l h⟩
theorem fits_zero {x : Option Ptrs} (hx : Fits c (some 0) x) : Fits c none x := by
  obtain ⟨p, e, g, l⟩ := hx
  show cnt x = 0
  rw [e]; exact Nat.le_zero.1 l

theorem cnt_null : cntP (fun _ => .null) = 0 := rfl
theorem good_null : Good c (fun _ => .null) := ⟨fun _ => by decide, fun _ => rfl, fun _ => rfl⟩
theorem setP_setP (s : St) (k : Slot) (x y : Option Ptrs) : (s.setP k x).setP k y = s.setP k y := by
  unfold St.setP
  have : (fun j => if j = k then y else if j = k then x else s.ci j) = fun j => if j = k then y else s.ci j := by
    funext j; split <;> rfl
  simp only [this]
theorem setP_same (s : St) (k : Slot) (x : Option Ptrs) : (s.setP k x).ci k = x := by simp [St.setP]
theorem setP_id {s : St} {k : Slot} {p : Ptrs} (h : s.ci k = some p) : s.setP k (some p) = s := by
  unfold St.setP
  have : (fun j => if j = k then some p else s.ci j) = s.ci := by
    funext j; split
    · next hj => rw [hj, h]
    · rfl
  rw [this]

theorem whenB_true (m : M St Unit) : whenB true m = m := rfl
theorem whenB_false (m : M St Unit) : whenB false m = pure () := rfl

theorem release_good {s : St} {p : Ptrs} (f : Fld) (hp : s.ci k = some p) (hg : Good c p) :
    release k f s = (.ok (), s.setP k (some (p.set f .null))) := by
  unfold release
  simp only [M.run_bind, M.run_get, hp]
  have hcl := hg.clean f
  rcases hpf : p f with _ | _ | _
  · simp only [M.run_pure]
    have h1 : p.set f .null = p := by
      funext g; unfold Ptrs.set; split
      · next hgf => rw [hgf, hpf]
      · rfl
    rw [h1, setP_id hp]
  · simp only [M.run_modify, St.setF, hp]
  · exact absurd hpf hcl

/-- `RedInodePutCoord` leaves only the inode buffer. -/
theorem putCoord_run {s : St} {p : Ptrs} (hp : s.ci k = some p) (hg : Good c p) : ∃ q, Good c q ∧ q .data = .null ∧
    q .indir = .null ∧ q .dindir = .null ∧ q .node = p .node ∧ putCoord c k s = (.ok (), s.setP k (some q)) := by
  have e1 := release_good .data hp hg
  have g1 := set_null_good hg .data
  have n1 : (p.set .data .null) .data = .null := rfl
  have e2 : ∃ q, Good c q ∧ q .data = .null ∧ q .indir = .null ∧ q .node = p .node ∧
      whenB c.hasIndir (putIndir k) (s.setP k (some (p.set .data .null))) = (.ok (), s.setP k (some q)) := by
    cases hi : c.hasIndir
    · rw [whenB_false]
      exact ⟨_, g1, n1, g1.ind hi, rfl, rfl⟩
    · rw [whenB_true]
      refine ⟨_, set_null_good g1 .indir, rfl, rfl, rfl, ?_⟩
      have := release_good .indir (setP_same s k _) g1
      rw [setP_setP] at this
      exact this
  obtain ⟨q, gq, q1, q2, q3, e2⟩ := e2
  have e3 : ∃ q', Good c q' ∧ q' .data = .null ∧ q' .indir = .null ∧ q' .dindir = .null ∧ q' .node = p .node ∧
      whenB c.hasDindir (putDindir k) (s.setP k (some q)) = (.ok (), s.setP k (some q')) := by
    cases hi : c.hasDindir
    · rw [whenB_false]
      exact ⟨_, gq, q1, q2, gq.dind hi, q3, rfl⟩
    · rw [whenB_true]
      refine ⟨_, set_null_good gq .dindir, q1, q2, rfl, q3, ?_⟩
      have := release_good .dindir (setP_same s k _) gq
      rw [setP_setP] at this
      exact this
  obtain ⟨q', gq', r1, r2, r3, r4, e3⟩ := e3
  refine ⟨q', gq', r1, r2, r3, r4, ?_⟩
  unfold putCoord putData
  rw [M.run_bind, e1]
  simp only [M.run_bind, e2, e3]

theorem putCoord_tri (hk : A.Has k) : Tri (Inv c A) (putCoord c k) (Inv c (A.set k (some 1))) E := by
  intro s h
  obtain ⟨n, hk⟩ := hk
  have hf := h.fits k
  rw [hk] at hf
  obtain ⟨p, hp, hg, hc⟩ := hf
  obtain ⟨q, gq, q1, q2, q3, q4, e⟩ := putCoord_run hp hg
  rw [e]
  refine setP_inv h k ⟨q, rfl, gq, ?_⟩
  unfold cntP
  rw [q1, q2, q3]
  cases q .node <;> decide
theorem inodePut_tri (hk : A.Has k) : Tri (Inv c A) (inodePut c k) (Inv c (A.set k (some 0))) E := by
  intro s h
  obtain ⟨n, hk⟩ := hk
  have hf := h.fits k
  rw [hk] at hf
  obtain ⟨p, hp, hg, hc⟩ := hf
  obtain ⟨q, gq, q1, q2, q3, q4, e⟩ := putCoord_run hp hg
  unfold inodePut
  rw [M.run_bind, e]
  have := release_good .node (setP_same s k (some q)) gq
  rw [setP_setP] at this
  simp only [this]
  refine setP_inv h k ⟨_, rfl, set_null_good gq .node, ?_⟩
  unfold cntP Ptrs.set
  simp [q1, q2, q3, Ref.cnt]

/-- Nothing is lost when the variable `k` is overwritten. -/
theorem zero_tri (hk : A k = none ∨ A k = some 0) : Tri (Inv c A) (zero k) (Inv c (A.set k (some 0))) E := by
  intro s h
  have hz : cnt (s.ci k) = 0 := by
    have := cnt_fits (h.fits k)
    rcases hk with hk | hk <;> rw [hk] at this <;> simpa using this
  unfold zero
  simp only [M.run_bind, M.run_get, hz, ne_eq, not_true_eq_false, decide_false, whenB_false, M.run_pure, M.run_modify]
  exact setP_inv h k ⟨_, rfl, good_null, Nat.le_refl _⟩
theorem declare_keep (hk : A k = none) : Keep (Inv c A) (declare k) := by
  intro s h
  have hz : cnt (s.ci k) = 0 := by
    have := cnt_fits (h.fits k)
    rw [hk] at this; simpa using this
  unfold declare
  simp only [M.run_bind, M.run_get, hz, ne_eq, not_true_eq_false, decide_false, whenB_false, M.run_pure, M.run_modify]
  have := setP_inv (c := c) h k (x := none) (y := none) rfl
  rwa [set_self hk] at this

theorem total_set_le {x y : Option Nat} (h : x.getD 0 ≤ y.getD 0) (A : Caps) (k : Slot) :
    (A.set k x).total ≤ (A.set k y).total := by
  unfold Caps.total Caps.set
  cases k <;> simp <;> omega
theorem Room.set_le {x y : Option Nat} (h : Room c (A.set k y)) (hx : x.getD 0 ≤ y.getD 0) : Room c (A.set k x) :=
  ⟨h.ptrs, h.min, by have := total_set_le hx A k; have := h.room; omega⟩

theorem acquire_node (h : Room c (A.set k (some 1))) :
    Tri (Inv c (A.set k (some 0))) (acquire c k .node) (Inv c (A.set k (some 1))) (Inv c (A.set k (some 0))) := by
  intro s hs
  have hk := set_same A k (some 0)
  have hfit : ∀ p, s.ci k = some p → p .node = .null ∧ cntP p + 1 ≤ 1 := by
    intro p hp
    have hf := hs.fits k
    rw [hk] at hf
    obtain ⟨q, hq, hg, hc⟩ := hf
    rw [hp] at hq
    cases hq
    refine ⟨?_, by omega⟩
    have hcl := hg.clean .node
    rcases hn : p .node with _ | _ | _
    · rfl
    · unfold cntP at hc; rw [hn] at hc; simp [Ref.cnt] at hc
    · exact absurd hn hcl
  have := acquire_tri (m := 1) (f := .node) hs hk h.ptrs h.min
    (by rw [set_set]; have := h.room; omega) hfit (by omega) (by intro h; cases h) (by intro h; cases h)
  rw [set_set] at this
  rcases hq : acquire c k .node s with ⟨r | a, s'⟩ <;> simp only [hq] at this ⊢ <;> exact this

theorem inv_up {n m : Nat} (h : n ≤ m) {s : St} (hs : Inv c (A.set k (some n)) s) : Inv c (A.set k (some m)) s :=
  hs.mono fun j x hx => by
    unfold Caps.set at hx ⊢
    split
    · next hj => rw [if_pos hj] at hx; exact fits_le h hx
    · next hj => rw [if_neg hj] at hx; exact hx
theorem inv_none {s : St} (hs : Inv c (A.set k (some 0)) s) : Inv c (A.set k none) s :=
  hs.mono fun j x hx => by
    unfold Caps.set at hx ⊢
    split
    · next hj => rw [if_pos hj] at hx; exact fits_zero hx
    · next hj => rw [if_neg hj] at hx; exact hx

/-- `RedInodeMount` of a valid inode number: afterwards the variable is initialised, also if it fails. -/
theorem inodeMount_tri (h : Room c (A.set k (some 1))) (hk : A k = none ∨ A k = some 0) (b : Bool) :
    Tri (Inv c A) (inodeMount c k true b) (Inv c (A.set k (some 1))) (Inv c (A.set k (some 0))) := by
  have h0 : Room c (A.set k (some 0)) := h.set_le (by simp)
  have hh : (A.set k (some 1)).Has k := ⟨1, set_same A k _⟩
  unfold inodeMount
  simp only [Bool.not_true, Bool.false_eq_true, if_false]
  refine Tri.bind (zero_tri (E := Inv c (A.set k (some 0))) hk) fun _ => ?_
  have hin : Tri (Inv c (A.set k (some 0))) (do
      currentCopy c
      acquire c k .node
      whenB (!c.readOnly) (isBranched c)
      status
      whenB b (inodeBranch c k)) (Inv c (A.set k (some 1))) (Inv c (A.set k (some 1))) := by
    refine Tri.bind (Tri.mono (Keep.tri (currentCopy_keep h0)) (fun _ h => h) (fun _ h => h) (fun _ h => inv_up (by omega) h)) fun _ => ?_
    refine Tri.bind (Tri.mono (acquire_node h) (fun _ h => h) (fun _ h => h) (fun _ h => inv_up (by omega) h)) fun _ => ?_
    have h1 := isBranched_keep h
    have h2 := inodeBranch_keep h hh
    refine Keep.tri ?_
    keep
  show TriR _ _ (fun _ => Inv c (A.set k (some 1))) _
  refine TriR.bind (Tri.attemptR hin) fun r => ?_
  cases r with
  | ok _ => exact TriR.pure fun s hs => hs
  | error e =>
    show Tri (Inv c (A.set k (some 1))) (do inodePut c k; M.fail e) _ _
    have hp := inodePut_tri (c := c) (E := Inv c (A.set k (some 0))) hh
    rw [set_set] at hp
    exact Tri.bind hp fun _ s hs => hs

/-- `RedInodeMount` of any inode number: if it fails the variable is as before. -/
theorem inodeMountAny_tri (h : Room c (A.set k (some 1))) (hk : A k = none ∨ A k = some 0) (b : Bool) :
    Tri (Inv c A) (inodeMountAny c k b) (Inv c (A.set k (some 1))) (Inv c A) := by
  unfold inodeMountAny
  refine Tri.bind flipT fun x => ?_
  cases x
  · refine Tri.mono (inodeMount_tri h hk b) (fun _ h => h) (fun _ h => h) fun s hs => ?_
    rcases hk with hk | hk
    · have := inv_none hs; rwa [set_self hk] at this
    · rwa [set_self hk] at hs
  · exact fun s hs => hs

theorem mounted_triR (hk : A.Has k) : Tri (Inv c A) (mounted k)
    (fun s => Inv c A s ∧ ∃ p, s.ci k = some p ∧ Good c p ∧ p .node = .held) (Inv c A) := by
  intro s h
  have hkeep := mounted_keep (c := c) (t := 0) hk s h
  obtain ⟨n, hk⟩ := hk
  have hf := h.fits k
  rw [hk] at hf
  obtain ⟨p, hp, hg, hc⟩ := hf
  unfold mounted at hkeep ⊢
  simp only [M.run_bind, M.run_get, hp] at hkeep ⊢
  by_cases hn : p .node = .null
  · simp only [hn, if_true, M.run_fail] at hkeep ⊢
    exact hkeep
  · simp only [hn, if_false] at hkeep ⊢
    have hheld : p .node = .held := by
      have hcl := hg.clean .node
      rcases hx : p .node with _ | _ | _
      · exact absurd hx hn
      · rfl
      · exact absurd hx hcl
    have hst : (status s).2.ci = s.ci := by
      have : Keep (fun s' => s'.ci = s.ci) status := Keep.status fun _ _ h => h
      exact this s rfl
    rcases hss : status s with ⟨r | a, s'⟩
    · simp only [hss] at hkeep ⊢; exact hkeep
    · simp only [hss] at hkeep hst ⊢
      exact ⟨hkeep, p, by rw [hst]; exact hp, hg, hheld⟩
theorem discard_tri (hk : A.Has k) : Tri (fun s => Inv c A s ∧ ∃ p, s.ci k = some p ∧ Good c p ∧ p .node = .held)
    (discard k .node) (Inv c A) E := by
  intro s h
  obtain ⟨h, p, hp, hg, hn⟩ := h
  obtain ⟨n, hk⟩ := hk
  have hf := h.fits k
  rw [hk] at hf
  obtain ⟨p', hp', hg', hc⟩ := hf
  rw [hp] at hp'; cases hp'
  unfold discard
  simp only [M.run_bind, M.run_get, hp, hn, if_true, M.run_modify, St.setF]
  have := setP_inv (c := c) h k (x := some n) (y := some (p.set .node .null))
    ⟨_, rfl, set_null_good hg .node, Nat.le_trans (set_null_cnt p .node) hc⟩
  rwa [set_self hk] at this
theorem inodeFree_keep (h : Room c A) (hk : A.Has k) : Keep (Inv c A) (inodeFree c k) := by
  apply Tri.keep
  refine Tri.bind (mounted_triR hk) fun _ => Tri.bind (discard_tri hk) fun _ => Keep.tri ?_
  have h1 := bitGet_keep h
  have h2 := bitSet_keep h
  keep

/-- `RedInodeCreate`: if it fails, no reference is left in the variable. -/
theorem inodeCreate_tri (h : Room c (A.set k (some 1))) (hk : A k = none) :
    Tri (Inv c A) (inodeCreate c k) (Inv c (A.set k (some 1))) (Inv c A) := by
  have h0 : Room c (A.set k (some 0)) := h.set_le (by simp)
  have hw : ∀ s, Inv c (A.set k (some 0)) s → Inv c A s := by
    intro s hs
    have := inv_none hs
    rwa [set_self hk] at this
  have hb := InvT.blind c A 0
  unfold inodeCreate
  refine Tri.bind (Keep.tri (Keep.status hb)) fun _ => Tri.bind (zero_tri (Or.inl hk)) fun _ => ?_
  have h1 := findFreeInode_keep h0
  have h2 := isFree_keep h0
  have h3 := writeableCopy_keep h0
  refine Tri.bind flipT fun x => ?_
  have hfind : Keep (Inv c (A.set k (some 0))) (if x = true then findFreeInode c else do status; isFree c; status) := by keep
  refine Tri.bind (Tri.mono (Keep.tri hfind) (fun _ h => h) (fun _ h => h) hw) fun _ => ?_
  refine Tri.bind (Tri.mono (Keep.tri h3) (fun _ h => h) (fun _ h => h) hw) fun _ => ?_
  have hacq : Tri (Inv c (A.set k (some 0))) (acquire c k .node)
      (fun s => Inv c (A.set k (some 1)) s ∧ ∃ p, s.ci k = some p ∧ p .node = .held ∧ cntP p ≤ 1) (Inv c A) := by
    intro s hs
    have h4 := acquire_node h s hs
    have hf0 := hs.fits k
    rw [set_same] at hf0
    obtain ⟨p, hp, hg, hc⟩ := hf0
    rcases hq : acquire c k .node s with ⟨r | a, s'⟩
    · simp only [hq] at h4 ⊢; exact hw _ h4
    · simp only [hq] at h4 ⊢
      refine ⟨h4, ?_⟩
      have hf := h4.fits k
      rw [set_same] at hf
      obtain ⟨q, hq', hg', hc'⟩ := hf
      refine ⟨q, hq', ?_, hc'⟩
      have hnull : p .node = .null := by
        have hcl := hg.clean .node
        rcases hn : p .node with _ | _ | _
        · rfl
        · unfold cntP at hc; rw [hn] at hc; simp [Ref.cnt] at hc
        · exact absurd hn hcl
      unfold acquire at hq
      simp only [M.run_bind, M.run_get, hp, hnull, if_true, M.run_pure] at hq
      rcases hbg : bufGet c s with ⟨e | u, s2⟩
      · simp only [hbg] at hq; cases hq
      · simp only [hbg, M.run_modify] at hq
        have : s' = s2.setF k .node .held := (Prod.mk.inj hq).2.symm
        rw [this] at hq'
        unfold St.setF at hq'
        split at hq'
        · next hnone => rw [hnone] at hq'; cases hq'
        · rw [setP_same] at hq'; cases hq'; rfl
  refine Tri.bind hacq fun _ => ?_
  have hset : Keep (fun s => Inv c (A.set k (some 1)) s ∧ ∃ p, s.ci k = some p ∧ p .node = .held ∧ cntP p ≤ 1) (bitSet c) := by
    intro s hs
    refine ⟨bitSet_keep h s hs.1, ?_⟩
    have hci : ∀ ci0, Keep (fun s => s.ci = ci0) (bitSet c) := by
      intro ci0
      have hbl : Blind (fun s : St => s.ci = ci0) := fun _ _ h => h
      have hst := Keep.status hbl
      have hfl := Keep.flip hbl
      have hget : Keep (fun s : St => s.ci = ci0) (bufGet c) := by
        intro s h
        unfold bufGet
        simp only [M.run_bind, M.run_get]
        split
        · exact h
        · obtain ⟨b, o, e⟩ := flip_run s
          simp only [M.run_bind, e]
          cases b
          · exact h
          · exact h
      have htg : Keep (fun s : St => s.ci = ci0) (tmpGet c) := Keep.bind hget fun _ => fun s h => h
      have htp : Keep (fun s : St => s.ci = ci0) tmpPut := by
        intro s h
        unfold tmpPut
        simp only [M.run_modify]
        split <;> exact h
      have hext : Keep (fun s : St => s.ci = ci0) (external c) := by
        unfold external
        split
        · split
          · exact hfl
          · exact Keep.pure _
        · exact Keep.pure _
      have hbg : Keep (fun s : St => s.ci = ci0) (blockGet c) :=
        Keep.bind hst fun _ => Keep.bind hext fun _ => Keep.ite
          (fun _ => Keep.bind hst fun _ => Keep.bind htg fun _ => htp) (fun _ => hst)
      have hnb : Keep (fun s : St => s.ci = ci0) (imapNodeBranch c) :=
        Keep.bind hst fun _ => Keep.bind hfl fun _ => Keep.ite (fun _ => htg) (fun _ => Keep.bind hst fun _ => htg)
      have hes : Keep (fun s : St => s.ci = ci0) (eBlockSet c) :=
        Keep.bind hst fun _ => Keep.bind hnb fun _ => Keep.bind hfl fun _ => Keep.bind htp fun _ => Keep.whenB fun _ => Keep.fail _
      exact Keep.bind hst fun _ => Keep.bind hst fun _ => Keep.bind hext fun _ =>
        Keep.bind (Keep.ite (fun _ => hes) (fun _ => hst)) fun _ =>
        Keep.bind (Keep.maybe hbl hst) fun _ => Keep.maybe hbl (Keep.maybe hbl hbg)
    have := hci s.ci s rfl
    rw [this]
    exact hs.2
  show TriR _ _ (fun _ => Inv c (A.set k (some 1))) _
  refine TriR.bind (Tri.attemptR (Keep.tri hset)) fun r => ?_
  cases r with
  | ok _ => exact TriR.pure fun s hs => hs.1
  | error e =>
    intro s hs
    obtain ⟨hs, p, hp, hn, hc⟩ := hs
    have hput : putOnly k .node s = (.ok (), s.setP k (some (p.set .node .stale))) := by
      unfold putOnly
      simp only [M.run_bind, M.run_get, hp, hn, if_true, M.run_modify, St.setF]
    simp only [M.run_bind, hput, M.run_fail]
    have := setP_inv (c := c) hs k (x := none) (y := some (p.set .node .stale)) (by
      show cntP _ = 0
      unfold cntP at hc ⊢
      unfold Ptrs.set
      rw [hn] at hc
      simp [Ref.cnt] at hc ⊢
      omega)
    rwa [set_set, set_self hk] at this

theorem inodeDelete_keep (h : Full c A k) : Keep (Inv c A) (inodeDelete c k) := by
  have h1 := mounted_keep (c := c) (t := 0) h.has
  have h2 := dataTruncate_keep h
  have h3 := inodeFree_keep h.toRoom h.has
  unfold inodeDelete; keep
theorem linkDec_keep (h : Full c A k) : Keep (Inv c A) (linkDec c k) := by
  have h1 := mounted_keep (c := c) (t := 0) h.has
  have h2 := inodeBranch_keep h.toRoom h.has
  have h3 := inodeDelete_keep h
  unfold linkDec; keep
theorem cyclicCheck_keep (h : Room c (A.set .next (some 1))) (hn : A .next = none) {kd : Slot} (hk : A.Has kd) :
    Keep (Inv c A) (cyclicCheck c kd) := by
  have h1 := mounted_keep (c := c) (t := 0) hk
  have h2 : Keep (Inv c A) (declare .next) := declare_keep hn
  have h3 : Keep (Inv c A) (do inodeMountAny c .next false; inodePut c .next; pure false) := by
    apply Tri.keep
    refine Tri.bind (inodeMountAny_tri h (Or.inl hn) false) fun _ => ?_
    have hp := inodePut_tri (c := c) (A := A.set .next (some 1)) (k := .next) (E := Inv c A) ⟨1, set_same _ _ _⟩
    rw [set_set] at hp
    refine Tri.bind (Q := Inv c A) (Tri.mono hp (fun _ h => h) (fun s hs => ?_) (fun _ h => h)) fun _ s hs => hs
    have := inv_none hs
    rwa [set_self hn] at this
  unfold cyclicCheck; keep

/-! The calls. -/

def caps (a b c d e : Option Nat) : Caps
  | .srcP => a
  | .dstP => b
  | .src => c
  | .dst => d
  | .next => e
@[simp] theorem caps_srcP (a b c d e x) : (caps a b c d e).set .srcP x = caps x b c d e := by funext j; cases j <;> rfl
@[simp] theorem caps_dstP (a b c d e x) : (caps a b c d e).set .dstP x = caps a x c d e := by funext j; cases j <;> rfl
@[simp] theorem caps_src (a b c d e x) : (caps a b c d e).set .src x = caps a b x d e := by funext j; cases j <;> rfl
@[simp] theorem caps_dst (a b c d e x) : (caps a b c d e).set .dst x = caps a b c x e := by funext j; cases j <;> rfl
@[simp] theorem caps_next (a b c d e x) : (caps a b c d e).set .next x = caps a b c d x := by funext j; cases j <;> rfl
theorem caps_total (a b c d e) : (caps a b c d e).total = a.getD 0 + b.getD 0 + c.getD 0 + d.getD 0 + e.getD 0 := rfl

/-- No references. -/
abbrev none5 : Caps := caps none none none none none

/-- A build that compiles: `#error "REDCONF_BUFFER_COUNT is too low for the configuration"` does not strike. -/
structure Cfg.Ok (c : Cfg) : Prop where
  ptrs : c.direct + c.indirect ≤ c.entries
  bufs : c.minimum ≤ c.bufs

theorem ib_ge (c : Cfg) : 2 ≤ c.inodeBuffers := by
  unfold Cfg.inodeBuffers Cfg.inodeMeta; split
  · omega
  · split <;> omega
theorem min_any (c : Cfg) : c.inodeBuffers + c.imapBuffers ≤ c.minimum := by
  unfold Cfg.minimum; split
  · omega
  · split
    · split <;> omega
    · omega
theorem min_posix {c : Cfg} (h1 : c.readOnly = false) (h2 : c.fse = false) : c.inodeBuffers + 1 + c.imapBuffers ≤ c.minimum := by
  unfold Cfg.minimum; simp only [h1, h2, Bool.or_self, Bool.false_eq_true, if_false]
  split
  · split <;> omega
  · omega
def Cfg.dstCap (c : Cfg) : Nat := if c.renameAtomic then 1 else 0
theorem min_rename {c : Cfg} (h1 : c.readOnly = false) (h2 : c.fse = false) (h3 : c.rename = true) :
    c.minimum = c.inodeBuffers + c.inodeBuffers + 2 + c.dstCap + c.imapBuffers := by
  unfold Cfg.minimum Cfg.dstCap; simp only [h1, h2, h3, Bool.or_self, Bool.false_eq_true, if_false, if_true]
  split <;> omega

theorem capsUp {a b d e f a' b' d' e' f' : Option Nat} (ha : ∀ x, Fits c a x → Fits c a' x) (hb : ∀ x, Fits c b x → Fits c b' x)
    (hd : ∀ x, Fits c d x → Fits c d' x) (he : ∀ x, Fits c e x → Fits c e' x) (hf : ∀ x, Fits c f x → Fits c f' x) (s : St)
    (h : Inv c (caps a b d e f) s) : Inv c (caps a' b' d' e' f') s :=
  h.mono fun j x => by cases j <;> simp only [caps] <;> first | exact ha x | exact hb x | exact hd x | exact he x | exact hf x
theorem fup {n m : Nat} (h : n ≤ m) : ∀ x, Fits c (some n) x → Fits c (some m) x := fun _ hx => fits_le h hx
theorem fid {n : Option Nat} : ∀ x, Fits c n x → Fits c n x := fun _ h => h
theorem fz : ∀ x, Fits c (some 0) x → Fits c none x := fun _ h => fits_zero h

theorem Keep.withRetry {I : St → Prop} (hI : Blind I) {m : M St Unit} (h : Keep I m) : Keep I (withRetry m) := by
  have hst := Keep.status hI
  refine Keep.bind (Keep.attempt h) fun r => Keep.bind (Keep.flip hI) fun full => Keep.bind ?_ fun _ => Keep.maybe hI hst
  cases r with
  | ok _ => exact Keep.pure _
  | error e => exact Keep.ite (fun _ => Keep.bind hst fun _ => h) (fun _ => Keep.fail _)

/-- Calls on one inode: mount, do something, give it back. -/
theorem oneInode (hc : c.Ok) {m : M St Unit} (b : Bool)
    (hm : Full c (caps none none (some c.inodeBuffers) none none) .src →
      Keep (Inv c (caps none none (some c.inodeBuffers) none none)) m) :
    Keep (Inv c none5) (do inodeMountAny c .src b; andThen m (inodePut c .src)) := by
  have hmin := min_any c
  have hib := ib_ge c
  have hr : Room c (caps none none (some c.inodeBuffers) none none) := ⟨hc.ptrs, hc.bufs, by rw [caps_total]; simpa using hmin⟩
  have hr1 : Room c (none5.set .src (some 1)) := ⟨hc.ptrs, hc.bufs, by simp [caps_total]; omega⟩
  have hf : Full c (caps none none (some c.inodeBuffers) none none) .src := ⟨hr, rfl⟩
  apply Tri.keep
  have h1 := inodeMountAny_tri hr1 (Or.inl rfl) b
  rw [caps_src] at h1
  refine Tri.bind (Q := Inv c (caps none none (some c.inodeBuffers) none none))
    (Tri.mono h1 (fun _ h => h) (capsUp fid fid (fup (by omega)) fid fid) (fun _ h => h)) fun _ => ?_
  have h2 := inodePut_tri (c := c) (E := Inv c none5) hf.has
  rw [caps_src] at h2
  exact Tri.andThen (Keep.tri (hm hf)) (Tri.mono h2 (fun _ h => h) (capsUp fid fid fz fid fid) (fun _ h => h))

theorem decl_src : Keep (Inv c none5) (declare .src) := declare_keep rfl

theorem coreLookup_keep (hc : c.Ok) : Keep (Inv c none5) (coreLookup c) :=
  Keep.bind (Keep.status (InvT.blind _ _ _)) fun _ => Keep.bind decl_src fun _ => oneInode hc false fun h => dirLookup_keep h
theorem coreStat_keep (hc : c.Ok) : Keep (Inv c none5) (coreStat c) := by
  have h := oneInode hc (m := pure ()) false fun _ => Keep.pure _
  refine Keep.bind (Keep.status (InvT.blind _ _ _)) fun _ => Keep.bind decl_src fun _ => ?_
  intro s hs
  have := h s hs
  have e : (do inodeMountAny c .src false; andThen (pure ()) (inodePut c .src)) s = (do inodeMountAny c .src false; inodePut c .src) s := by
    simp only [M.run_bind]
    rcases inodeMountAny c .src false s with ⟨r | a, s'⟩
    · rfl
    · unfold andThen
      simp only [M.run_bind, M.run_attempt, M.run_pure]
      rcases inodePut c .src s' with ⟨r | a, s''⟩ <;> rfl
  rw [e] at this
  exact this
theorem coreFileRead_keep (hc : c.Ok) : Keep (Inv c none5) (coreFileRead c) :=
  Keep.bind (Keep.status (InvT.blind _ _ _)) fun _ => Keep.bind decl_src fun _ => Keep.bind (Keep.flip (InvT.blind _ _ _)) fun b =>
    oneInode hc _ fun h => dataRead_keep h
theorem coreFileWrite_keep (hc : c.Ok) : Keep (Inv c none5) (coreFileWrite c) :=
  Keep.bind (Keep.status (InvT.blind _ _ _)) fun _ => Keep.bind decl_src fun _ => oneInode hc true fun h => dataWrite_keep h
theorem coreFileTruncate_keep (hc : c.Ok) : Keep (Inv c none5) (coreFileTruncate c) :=
  Keep.bind (Keep.status (InvT.blind _ _ _)) fun _ => Keep.bind decl_src fun _ => oneInode hc true fun h => dataTruncate_keep h
theorem coreDirRead_keep (hc : c.Ok) : Keep (Inv c none5) (coreDirRead c) :=
  Keep.bind (Keep.status (InvT.blind _ _ _)) fun _ => Keep.bind decl_src fun _ => oneInode hc false fun h => by
    have h1 := dirRead_keep h
    have h2 := inodeBranch_keep h.toRoom h.has
    keep

/-- The parent may hold everything and the inode its own buffer. -/
abbrev capsPI (c : Cfg) : Caps := caps (some c.inodeBuffers) none (some 1) none none
theorem room_PI (hc : c.Ok) (h1 : c.readOnly = false) (h2 : c.fse = false) : Room c (capsPI c) :=
  ⟨hc.ptrs, hc.bufs, by rw [caps_total]; have := min_posix h1 h2; simp; omega⟩
theorem room_P (hc : c.Ok) : Room c (caps (some c.inodeBuffers) none none none none) :=
  ⟨hc.ptrs, hc.bufs, by rw [caps_total]; have := min_any c; simp; omega⟩

/-- Mount the parent, do something with it, give it back. -/
theorem withParent (hc : c.Ok) {m d : M St Unit}
    (hd : Keep (Inv c (caps (some c.inodeBuffers) none none none none)) d)
    (hd' : ∀ s, ∃ s', d s = (.ok (), s'))
    (hm : Keep (Inv c (caps (some c.inodeBuffers) none none none none)) m) :
    Keep (Inv c none5) (do inodeMountAny c .srcP false; d; andThen m (inodePut c .srcP)) := by
  have hmin := min_any c
  have hib := ib_ge c
  have hr1 : Room c (none5.set .srcP (some 1)) := ⟨hc.ptrs, hc.bufs, by simp [caps_total]; omega⟩
  apply Tri.keep
  have h1 := inodeMountAny_tri hr1 (Or.inl rfl) false
  rw [caps_srcP] at h1
  refine Tri.bind (Q := Inv c (caps (some c.inodeBuffers) none none none none))
    (Tri.mono h1 (fun _ h => h) (capsUp (fup (by omega)) fid fid fid fid) (fun _ h => h)) fun _ => ?_
  have h2 := inodePut_tri (c := c) (A := caps (some c.inodeBuffers) none none none none) (k := .srcP) (E := Inv c none5) ⟨_, rfl⟩
  rw [caps_srcP] at h2
  refine Tri.bind (Q := Inv c (caps (some c.inodeBuffers) none none none none)) (fun s hs => ?_) fun _ => ?_
  · have := hd s hs
    obtain ⟨s', e⟩ := hd' s
    rw [e] at this ⊢
    exact this
  · exact Tri.andThen (Keep.tri hm) (Tri.mono h2 (fun _ h => h) (capsUp fz fid fid fid fid) (fun _ h => h))

theorem declare_ok (k : Slot) (s : St) : ∃ s', declare k s = (.ok (), s') := by
  unfold declare
  simp only [M.run_bind, M.run_get]
  by_cases h : cnt (s.ci k) ≠ 0
  · simp only [h, ne_eq, not_false_eq_true, decide_true, whenB_true]
    exact ⟨_, rfl⟩
  · simp only [h, decide_false, whenB_false]
    exact ⟨_, rfl⟩

theorem put_src (E : St → Prop) : Tri (Inv c (capsPI c)) (inodePut c .src) (Inv c (caps (some c.inodeBuffers) none none none none)) E := by
  have h2 := inodePut_tri (c := c) (A := capsPI c) (k := .src) (E := E) ⟨_, rfl⟩
  rw [caps_src] at h2
  exact Tri.mono h2 (fun _ h => h) (capsUp fid fid fz fid fid) (fun _ h => h)

theorem mountAny_src (hc : c.Ok) (h1 : c.readOnly = false) (h2 : c.fse = false) :
    Tri (Inv c (caps (some c.inodeBuffers) none none none none)) (inodeMountAny c .src false) (Inv c (capsPI c))
      (Inv c (caps (some c.inodeBuffers) none none none none)) := by
  have hr := room_PI hc h1 h2
  have := inodeMountAny_tri (c := c) (A := caps (some c.inodeBuffers) none none none none) (k := .src)
    (by rw [caps_src]; exact hr) (Or.inl rfl) false
  rwa [caps_src] at this

theorem coreCreate_keep (hc : c.Ok) (h1 : c.readOnly = false) (h2 : c.fse = false) : Keep (Inv c none5) (coreCreate c) := by
  have hr := room_PI hc h1 h2
  have hfull : Full c (capsPI c) .srcP := ⟨hr, rfl⟩
  have hdecl : Keep (Inv c (caps (some c.inodeBuffers) none none none none)) (declare .src) := declare_keep rfl
  unfold coreCreate
  refine Keep.bind (Keep.status (InvT.blind _ _ _)) fun _ => Keep.bind (declare_keep rfl) fun _ => ?_
  have hin : Keep (Inv c (caps (some c.inodeBuffers) none none none none)) (do
      inodeCreate c .src
      andThen (do
        let r ← attempt (do inodeBranch c .srcP; dirCreate c .srcP)
        match r with
        | .ok _ => pure ()
        | .error e => do
          let _ ← attempt (inodeFree c .src)
          M.fail e)
        (inodePut c .src)) := by
    apply Tri.keep
    have hcr := inodeCreate_tri (c := c) (A := caps (some c.inodeBuffers) none none none none) (k := .src) (by rw [caps_src]; exact hr) rfl
    rw [caps_src] at hcr
    refine Tri.bind hcr fun _ => Tri.andThen (Keep.tri ?_) (put_src _)
    have g1 := inodeBranch_keep hr hfull.has
    have g2 := dirCreate_keep hfull
    have g3 : Keep (Inv c (capsPI c)) (inodeFree c .src) := inodeFree_keep hr ⟨_, rfl⟩
    keep
  exact withParent hc hdecl (declare_ok _) hin

end RedFs.Refs
