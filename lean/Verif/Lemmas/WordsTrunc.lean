import Verif.Model.WordsTrunc
import Verif.Lemmas.WordsDirEnd
set_option linter.unusedSimpArgs false
set_option linter.unusedVariables false
set_option linter.unnecessarySeqFocus false
/-!
The truncating functions in words do the same as those of `Model/Data.lean`.
-/
namespace RedFs.Words
open M

variable {c : Conf}

/-- The coordinates of a cached inode. -/
def coord (ci : Cinode) : Bool × Nat × Nat × Option Nat × Option Nat := (ci.inited, ci.logical, ci.inodeEntry, ci.dindirEntry, ci.indirEntry)

/-- The operation leaves the coordinates alone. -/
def KeepC {α : Type} (m : DM α) : Prop := ∀ s, coord (m s).2.ci = coord s.ci

theorem kc_pure {α : Type} (a : α) : KeepC (pure a : DM α) := fun _ => rfl
theorem kc_fail {α : Type} (e : Err) : KeepC (fail e : DM α) := fun _ => rfl
theorem kc_get : KeepC (get : DM DS) := fun _ => rfl
theorem kc_bind {α β : Type} {m : DM α} {f : α → DM β} (h : KeepC m) (hf : ∀ a, KeepC (f a)) : KeepC (m >>= f) := by
  intro s
  rw [run_bind]
  have := h s
  rcases hm : m s with ⟨r, s'⟩
  rw [hm] at this
  cases r with
  | error e => exact this
  | ok a => exact (hf a s').trans this
theorem kc_attempt {α : Type} {m : DM α} (h : KeepC m) : KeepC (attempt m) := fun s => by
  rw [run_attempt]; exact h s
theorem kc_onlyIf {α : Type} {p : Prop} [Decidable p] {m : DM α} {d : α} (h : KeepC m) : KeepC (onlyIf p m d) := by
  unfold onlyIf; split
  · exact h
  · exact kc_pure d
theorem kc_liftV {α : Type} (m : VM α) : KeepC (liftV m) := fun s => by
  unfold liftV
  rcases m s.v with ⟨r, v⟩; rfl
theorem kc_setCi {f : Cinode → Cinode} (h : ∀ ci, coord (f ci) = coord ci) : KeepC (setCi f) := fun s => h _
theorem kc_setNode {f : InodeNode → InodeNode} : KeepC (setNode f) := fun s => rfl
theorem kc_ite {α : Type} {p : Prop} [Decidable p] {a b : DM α} (ha : KeepC a) (hb : KeepC b) : KeepC (if p then a else b) := by
  split
  · exact ha
  · exact hb

macro "kcoord" : tactic => `(tactic| with_reducible repeat' first
  | exact kc_pure _ | exact kc_fail _ | exact kc_get | exact kc_liftV _
  | exact kc_setCi fun _ => rfl | exact kc_setNode
  | assumption
  | apply kc_onlyIf | apply kc_attempt | apply kc_bind | apply kc_ite | intro _ | split)

theorem seekDindir_kc : KeepC seekDindir := by unfold seekDindir; kcoord
theorem seekIndir_kc : KeepC seekIndir := by unfold seekIndir; kcoord
theorem branchDindir_kc : KeepC (branchDindir c) := by unfold branchDindir; kcoord
theorem branchIndir_kc (d : Nat) : KeepC (branchIndir c d) := by unfold branchIndir; kcoord
theorem branchData_kc (d : Nat) (b : Bool) : KeepC (branchData c d b) := by unfold branchData; kcoord
theorem branchBlock_kc (d : Nat) (b : Bool) : KeepC (branchBlock c d b) := by
  have := branchDindir_kc (c := c)
  have := branchIndir_kc (c := c) d
  have := branchData_kc (c := c) d b
  unfold branchBlock criticalAssertD; kcoord
theorem truncData_kc (q : Nat) : KeepC (truncData c q) := by unfold truncData; kcoord
theorem truncIndirLoop_kc (x : Nat) (fB : Bool) : ∀ n k, KeepC (RedFs.truncIndirLoop c x fB n k)
  | 0, _ => kc_pure _
  | n + 1, k => by
    have h1 := fun q => truncData_kc (c := c) q
    have h2 := truncIndirLoop_kc x fB n (k + 1)
    unfold RedFs.truncIndirLoop
    refine kc_bind kc_get fun s => kc_bind (h1 _) fun _ => kc_bind (kc_onlyIf (kc_liftV _)) fun _ => h2
theorem truncIndir_kc : KeepC (RedFs.truncIndir c) := by
  have := branchBlock_kc (c := c) 1 false
  have h := fun x fB n k => truncIndirLoop_kc (c := c) x fB n k
  unfold RedFs.truncIndir
  refine kc_bind kc_get fun s => ?_
  split
  · refine kc_bind (kc_onlyIf this) fun _ => kc_bind kc_get fun _ => kc_bind (h _ _ _ _) fun _ => ?_
    kcoord
  · exact kc_pure _

/-- The coordinates are those of block `t` of the file. -/
structure At (c : Conf) (t : U32) (ci : Cinode) : Prop where
  lt : t.toNat < c.dataBlocks
  log : ci.logical = t.toNat
  ino : ci.inodeEntry = (seekCoord c t).inodeEntry.toNat
  dind : ci.dindirEntry = entryOf (seekCoord c t).dindirEntry
  ind : ci.indirEntry = entryOf (seekCoord c t).indirEntry

theorem At.of {t : U32} {ci ci' : Cinode} (h : At c t ci) (e : coord ci' = coord ci) : At c t ci' := by
  simp only [coord, Prod.mk.injEq] at e
  obtain ⟨_, e1, e2, e3, e4⟩ := e
  exact ⟨h.lt, e1.trans h.log, e2.trans h.ino, e3.trans h.dind, e4.trans h.ind⟩

/-- The coordinates, once they are set, are those of a block of the file.  This holds of a fresh cached inode. -/
def Coherent (c : Conf) (ci : Cinode) : Prop := ci.inited = true → ∃ t, At c t ci

theorem At.coherent {t : U32} {ci : Cinode} (h : At c t ci) : Coherent c ci := fun _ => ⟨t, h⟩
theorem Coherent.of {ci ci' : Cinode} (h : Coherent c ci) (e : coord ci' = coord ci) : Coherent c ci' := by
  intro hi
  have e0 := e
  simp only [coord, Prod.mk.injEq] at e
  obtain ⟨t, ht⟩ := h (e.1 ▸ hi)
  exact ⟨t, ht.of e0⟩

theorem KeepC.at {α : Type} {m : DM α} (h : KeepC m) {s s' : DS} {a : α} (e : m s = (.ok a, s')) {t : U32} (ht : At c t s.ci) : At c t s'.ci := by
  have := h s; rw [e] at this; exact ht.of this
theorem KeepC.coh {α : Type} {m : DM α} (h : KeepC m) {s s' : DS} {a : α} (e : m s = (.ok a, s')) (ht : Coherent c s.ci) : Coherent c s'.ci := by
  have := h s; rw [e] at this; exact ht.of this

theorem entry16_entryOf (x : U16) : entry16 (entryOf x) = x := by
  unfold entryOf
  split
  · rename_i h; exact h.symm
  · exact BitVec.ofNat_toNat _ _ |>.trans (BitVec.setWidth_eq x)

theorem At.e1 {t : U32} {ci : Cinode} (h : At c t ci) : entry16 ci.dindirEntry = (seekCoord c t).dindirEntry := by rw [h.dind, entry16_entryOf]
theorem At.e2 {t : U32} {ci : Cinode} (h : At c t ci) : entry16 ci.indirEntry = (seekCoord c t).indirEntry := by rw [h.ind, entry16_entryOf]
theorem At.lw {t : U32} {ci : Cinode} (h : At c t ci) : BitVec.ofNat 32 ci.logical = t := by
  rw [h.log]; exact (BitVec.ofNat_toNat _ _).trans (BitVec.setWidth_eq t)

/-- A successful seek to block `t` sets the coordinates of `t`. -/
theorem seekData_at (hc : c.Ok) {t : U32} {s s' : DS} {r : Bool} (hs : Coherent c s.ci) (e : seekData c t.toNat s = (.ok r, s')) : At c t s'.ci := by
  have key : (seekInode c t.toNat s).1 = .error .einval ∨ At c t (seekInode c t.toNat s).2.ci := by
    unfold seekInode
    simp only [run_bind, run_get]
    by_cases hb : s.ci.nodeBuf = none ∨ c.dataBlocks ≤ t.toNat
    · left; rw [if_pos hb]; rfl
    right
    rw [if_neg hb]
    have hlt : t.toNat < c.dataBlocks := Nat.lt_of_not_le fun x => hb (Or.inr x)
    have h1 : ∃ s1, RedFs.seekCoord c t.toNat s = (.ok (), s1) ∧ At c t s1.ci := by
      unfold RedFs.seekCoord
      simp only [run_bind, run_get]
      rw [if_neg hb]
      by_cases hq : s.ci.logical ≠ t.toNat ∨ s.ci.inited = false
      · rw [if_pos hq]
        obtain ⟨a1, a2, a3⟩ := seekCoord_eq hc s.ci hlt
        refine ⟨_, rfl, hlt, ?_, a1, a2, a3⟩
        show (seekCi c s.ci t.toNat).logical = _
        unfold seekCi
        split
        · rfl
        split
        · dsimp only; split <;> rfl
        · dsimp only; split
          · rfl
          · split <;> rfl
      · rw [if_neg hq]
        refine ⟨_, rfl, ?_⟩
        obtain ⟨t', ht'⟩ := hs (by cases hi : s.ci.inited <;> simp_all)
        have : t' = t := by
          rw [eq_toNat, ← ht'.log]
          exact Decidable.byContradiction fun x => hq (Or.inl x)
        exact this ▸ ht'
    obtain ⟨s1, hm, h1⟩ := h1
    have hk : KeepC (do seekDindir; seekIndir; let s ← (get : DM DS); if s.ci.dataBlk = 0 then fail .enodata else pure () : DM Unit) := by
      have := seekDindir_kc
      have := seekIndir_kc
      kcoord
    simp only [run_bind, hm]
    have := hk s1
    simp only [run_bind] at this
    exact h1.of this
  unfold seekData at e
  simp only [run_bind, run_attempt] at e
  rcases hm : seekInode c t.toNat s with ⟨x, s1⟩
  rw [hm] at key e
  simp only at key e
  cases x with
  | ok u => rcases key with k | k
            · cases k
            · simp only [run_pure, Prod.mk.injEq] at e; rw [← e.2]; exact k
  | error er =>
    cases er <;> first
      | (simp only [run_fail, Prod.mk.injEq] at e; exact absurd e.1 (by simp))
      | (rcases key with k | k
         · cases k
         · simp only [run_pure, Prod.mk.injEq] at e; rw [← e.2]; exact k)

/-! ### The loops -/

theorem le16 {a b : U16} : a ≤ b ↔ a.toNat ≤ b.toNat := le_toNat a b
theorem succ16 {k n : U16} (h : k.toNat < n.toNat) : (k + 1).toNat = k.toNat + 1 := by
  have := n.isLt
  rw [BitVec.toNat_add, show (1 : U16).toNat = 1 from rfl]
  omega

theorem truncIndirLoop_eq (x : Nat) (fB : Bool) (n : U16) : ∀ fuel (k : U16), n.toNat - k.toNat ≤ fuel →
    truncIndirLoop c x fB n fuel k = RedFs.truncIndirLoop c x fB (n.toNat - k.toNat) k.toNat := by
  intro fuel
  induction fuel with
  | zero =>
    intro k h
    unfold truncIndirLoop
    rw [if_pos (le16.2 (by omega)), show n.toNat - k.toNat = 0 by omega]
    rfl
  | succ fuel ih =>
    intro k h
    unfold truncIndirLoop
    by_cases hk : n ≤ k
    · rw [if_pos hk, show n.toNat - k.toNat = 0 by rw [le16] at hk; omega]
      rfl
    · rw [if_neg hk]
      have hlt : k.toNat < n.toNat := by rw [le16] at hk; omega
      have hs := succ16 hlt
      have := ih (k + 1) (by omega)
      rw [show n.toNat - k.toNat = (n.toNat - (k + 1).toNat) + 1 by omega]
      dsimp only
      rw [this, hs]
      rfl

theorem SimAt.refl {α : Type} (m : DM α) (s : DS) : SimAt (fun a b => a = b) m m s := SimAt.same fun _ _ _ => rfl

theorem simGet (s : DS) : SimAt (fun a b => a = b ∧ b = s) (M.get : DM DS) M.get s := by unfold SimAt; simp

attribute [local irreducible] truncIndirLoop RedFs.truncIndirLoop in
/-- `TruncIndir` at a block of an indirect node. -/
theorem truncIndir_eq (hc : c.Ok) {t : U32} (h1 : c.direct ≤ t.toNat) (s : DS) (ht : At c t s.ci) : truncIndir c s = RedFs.truncIndir c s := by
  have hk : ∃ k, s.ci.indirEntry = some k ∧ (seekCoord c t).indirEntry.toNat = k := by
    rw [ht.ind]
    have hi := indirEntries_bounds hc
    have := (indirEntry_le hc h1 ht.lt).2
    exact ⟨_, entryOf_some rfl (by omega), rfl⟩
  obtain ⟨k, e, ek⟩ := hk
  subst ek
  apply SimAt.eq
  unfold truncIndir RedFs.truncIndir
  refine SimAt.bind (simGet s) fun a b s' hab e' => ?_
  obtain ⟨rfl, rfl⟩ := hab
  cases e'
  rw [ht.e2, e]
  cases hp : a.ci.pIndir with
  | none => exact SimAt.pure rfl
  | some x =>
    refine SimAt.bind (SimAt.refl _ _) fun _ _ s1 _ e1 => ?_
    have ht1 := (kc_onlyIf (branchBlock_kc 1 false)).at e1 ht
    refine SimAt.bind (simGet s1) fun a b s2 hab e2 => ?_
    obtain ⟨rfl, rfl⟩ := hab
    cases e2
    rw [ht1.e2, ht1.lw, ht1.log]
    have hn := truncIndirMax_eq hc h1 ht.lt
    have hl := truncIndirLoop_eq (c := c) (a.ci.pIndir.getD 0)
    have hf : (truncIndirMax c t (seekCoord c t).indirEntry).toNat - (seekCoord c t).indirEntry.toNat ≤ 65536 := by
      have := (truncIndirMax c t (seekCoord c t).indirEntry).isLt; omega
    refine SimAt.bind (R := fun a b => a = b) ?_ fun _ _ s3 _ e3 => SimAt.refl _ _
    rw [hl _ _ _ _ hf, hn]
    exact SimAt.refl _ _

/-- The operation, if it succeeds, leaves the coordinates coherent. -/
def KeepCoh (c : Conf) {α : Type} (m : DM α) : Prop := ∀ s a s', Coherent c s.ci → m s = (.ok a, s') → Coherent c s'.ci

theorem KeepC.kcoh {α : Type} {m : DM α} (h : KeepC m) : KeepCoh c m := fun _ _ _ hs e => h.coh e hs
theorem KeepCoh.bind {α β : Type} {m : DM α} {f : α → DM β} (h : KeepCoh c m) (hf : ∀ a, KeepCoh c (f a)) : KeepCoh c (m >>= f) := by
  intro s a s' hs e
  rw [run_bind] at e
  rcases hm : m s with ⟨r, s1⟩
  rw [hm] at e
  cases r with
  | error er => cases e
  | ok b => exact hf b s1 a s' (h s b s1 hs hm) e
theorem KeepCoh.onlyIf {α : Type} {p : Prop} [Decidable p] {m : DM α} {d : α} (h : KeepCoh c m) : KeepCoh c (onlyIf p m d) := by
  unfold M.onlyIf; split
  · exact h
  · exact (kc_pure d).kcoh
theorem seekData_coh (hc : c.Ok) (b : Nat) : KeepCoh c (seekData c b) := by
  intro s r s' hs e
  by_cases hb : b < 4294967296
  · have : (BitVec.ofNat 32 b : U32).toNat = b := ofNat32 hb
    rw [← this] at e
    exact (seekData_at hc hs e).coherent
  · exfalso
    have hD := dataBlocks_le hc
    unfold seekData seekInode at e
    simp only [run_bind, run_attempt, run_get] at e
    rw [if_pos (Or.inr (by omega))] at e
    simp [run_fail] at e
theorem truncDindirLoop_coh (hc : c.Ok) (fB : Bool) : ∀ n d b, KeepCoh c (RedFs.truncDindirLoop c fB n d b)
  | 0, _, _ => (kc_pure _).kcoh
  | n + 1, d, b => by
    have h2 := fun b => truncDindirLoop_coh hc fB n (d + 1) b
    unfold RedFs.truncDindirLoop
    refine (seekData_coh hc b).bind fun _ => kc_get.kcoh.bind fun s => KeepCoh.bind ?_ fun _ => kc_get.kcoh.bind fun _ => h2 _
    refine KeepCoh.onlyIf (truncIndir_kc.kcoh.bind fun fr => KeepCoh.onlyIf ?_)
    exact kc_get.kcoh.bind fun _ => (kc_liftV _).kcoh
theorem truncDindir_coh (hc : c.Ok) : KeepCoh c (RedFs.truncDindir c) := by
  have h := fun fB n d b => truncDindirLoop_coh hc fB n d b
  unfold RedFs.truncDindir
  refine kc_get.kcoh.bind fun s => ?_
  split
  · refine (kc_onlyIf (branchBlock_kc _ _)).kcoh.bind fun _ => kc_get.kcoh.bind fun _ => (h _ _ _ _).bind fun _ => KeepC.kcoh ?_
    kcoord
  · exact (kc_pure _).kcoh

/-- The entry in the indirect node, for a block in the range of the double indirect pointers. -/
theorem dindir_k (hc : c.Ok) {t : U32} (h1 : c.direct + c.indirBlocks ≤ t.toNat) (h2 : t.toNat < c.dataBlocks) :
    (seekCoord c t).indirEntry.toNat = (t.toNat - c.direct - c.indirBlocks) % c.indirEntries := by
  rw [(seekCoord_dindir hc h1 h2).2.2]
  unfold Conf.dindirData
  exact Nat.mod_mul_left_mod _ _ _

attribute [local irreducible] truncIndir RedFs.truncIndir in
/-- The loop of `TruncDindir`: from round `d` on, at block `b`, which lies in the indirect node number `Q0 + d`. -/
theorem truncDindirLoop_sim (hc : c.Ok) (fB : Bool) (n : U16) (Q0 : Nat)
    (hn : ∀ d, d + 1 < n.toNat → c.direct + c.indirBlocks + (Q0 + d + 1) * c.indirEntries < c.dataBlocks) :
    ∀ fuel (d : U16) (b : U32) (bn : Nat) s, n.toNat - d.toNat ≤ fuel → Coherent c s.ci →
      (d.toNat < n.toNat → b.toNat = bn ∧ c.direct + c.indirBlocks ≤ bn ∧ (bn - c.direct - c.indirBlocks) / c.indirEntries = Q0 + d.toNat) →
      SimAt (fun a b => a = b) (truncDindirLoop c fB n fuel d b) (RedFs.truncDindirLoop c fB (n.toNat - d.toNat) d.toNat bn) s := by
  have hi := indirEntries_bounds hc
  have hD := dataBlocks_le hc
  intro fuel
  induction fuel with
  | zero =>
    intro d b bn s h hs hb
    unfold truncDindirLoop
    rw [if_pos (le16.2 (by omega)), show n.toNat - d.toNat = 0 by omega]
    exact SimAt.pure rfl
  | succ fuel ih =>
    intro d b bn s h hs hb
    unfold truncDindirLoop
    by_cases hk : n ≤ d
    · rw [if_pos hk, show n.toNat - d.toNat = 0 by rw [le16] at hk; omega]
      exact SimAt.pure rfl
    rw [if_neg hk]
    have hlt : d.toNat < n.toNat := by rw [le16] at hk; omega
    have hsc := succ16 hlt
    obtain ⟨rfl, hlo, hq⟩ := hb hlt
    rw [show n.toNat - d.toNat = (n.toNat - (d + 1).toNat) + 1 by omega]
    unfold RedFs.truncDindirLoop
    dsimp only
    refine SimAt.bind (SimAt.refl _ _) fun r r' s1 er e1 => ?_
    have ht := seekData_at hc hs e1
    refine SimAt.bind (simGet s1) fun x y s2 hab e2 => ?_
    obtain ⟨rfl, rfl⟩ := hab
    cases e2
    refine SimAt.bind (R := fun a b => a = b) ?_ fun _ _ s3 _ e3 => ?_
    · refine SimAt.onlyIf Iff.rfl (fun _ => ?_) fun _ => rfl
      have := truncIndir_eq hc (by omega) x ht
      refine SimAt.bind (R := fun a b => a = b) ?_ fun f f' s4 ef e4 => ?_
      · unfold SimAt; rw [this]; exact SimAt.refl _ _
      · subst ef; exact SimAt.refl _ _
    have kc : KeepC (onlyIf (x.ci.indirBlk ≠ 0) (do
          let freed ← RedFs.truncIndir c
          onlyIf (fB = true ∧ freed = true) (do
            let s ← get
            liftV (setPtr (s.ci.pDindir.getD 0) d.toNat 0)) ()) () : DM Unit) :=
      kc_onlyIf (kc_bind truncIndir_kc fun _ => kc_onlyIf (kc_bind kc_get fun _ => kc_liftV _))
    have ht3 := kc.at e3 ht
    refine SimAt.bind (simGet s3) fun x' y' s4 hab e4 => ?_
    obtain ⟨rfl, rfl⟩ := hab
    cases e4
    have hk := dindir_k hc hlo ht.lt
    have hke : x'.ci.indirEntry.getD 0 = (seekCoord c b).indirEntry.toNat := by
      rw [ht3.ind, entryOf_some rfl (by rw [hk]; have := Nat.mod_lt (b.toNat - c.direct - c.indirBlocks) (show 0 < c.indirEntries by omega); omega)]; rfl
    rw [hke, ht3.e2, ← hsc]
    have hm := Nat.mod_lt (b.toNat - c.direct - c.indirBlocks) (show 0 < c.indirEntries by omega)
    have hdm := Nat.div_add_mod (b.toNat - c.direct - c.indirBlocks) c.indirEntries
    rw [hq] at hdm
    have hnext : b.toNat + (c.indirEntries - (seekCoord c b).indirEntry.toNat) = c.direct + c.indirBlocks + (Q0 + d.toNat + 1) * c.indirEntries := by
      rw [hk, Nat.add_mul (Q0 + d.toNat) 1, Nat.mul_comm (Q0 + d.toNat)]
      omega
    refine ih (d + 1) _ _ x' (by omega) ht3.coherent fun hd => ⟨?_, ?_, ?_⟩
    · have hb2 := hn d.toNat (by omega)
      have s0 : (indirEntries c - up (seekCoord c b).indirEntry).toNat = c.indirEntries - (seekCoord c b).indirEntry.toNat := by
        rw [sub32 (by rw [up_toNat, hk, indirEntries_toNat hc]; omega), up_toNat, indirEntries_toNat hc]
      rw [add32 (by rw [s0]; omega), s0]
    · omega
    · rw [hnext, hsc, show c.direct + c.indirBlocks + (Q0 + d.toNat + 1) * c.indirEntries - c.direct - c.indirBlocks =
        (Q0 + d.toNat + 1) * c.indirEntries by omega, Nat.mul_div_cancel _ (by omega)]
      omega

attribute [local irreducible] truncDindirLoop RedFs.truncDindirLoop in
/-- `TruncDindir` at a block in the range of the double indirect pointers. -/
theorem truncDindir_sim (hc : c.Ok) {t : U32} (h1 : c.direct + c.indirBlocks ≤ t.toNat) (s : DS) (ht : At c t s.ci) :
    SimAt (fun a b => a = b) (truncDindir c) (RedFs.truncDindir c) s := by
  have hi := indirEntries_bounds hc
  have hdb := (seekCoord_dindir hc h1 ht.lt).2.1
  have hco := dindir_coord hc h1 ht.lt
  have hk := dindir_k hc h1 ht.lt
  have hml := Nat.mod_lt (t.toNat - c.direct - c.indirBlocks) (show 0 < c.indirEntries by omega)
  have e1 : s.ci.dindirEntry = some (seekCoord c t).dindirEntry.toNat := by rw [ht.dind]; exact entryOf_some rfl (by omega)
  have e2 : s.ci.indirEntry = some (seekCoord c t).indirEntry.toNat := by rw [ht.ind]; exact entryOf_some rfl (by omega)
  unfold truncDindir RedFs.truncDindir
  refine SimAt.bind (simGet s) fun a b s' hab e' => ?_
  obtain ⟨rfl, rfl⟩ := hab
  cases e'
  rw [ht.e1, ht.e2, e1, e2]
  cases hp : a.ci.pDindir with
  | none => exact SimAt.pure rfl
  | some x =>
    dsimp only
    refine SimAt.bind (SimAt.refl _ _) fun _ _ s1 _ e1' => ?_
    have ht1 := (kc_onlyIf (branchBlock_kc 0 false)).at e1' ht
    refine SimAt.bind (simGet s1) fun a' b' s2 hab e2' => ?_
    obtain ⟨rfl, rfl⟩ := hab
    cases e2'
    rw [ht1.e1, ht1.e2, ht1.lw, ht1.log]
    have ho := off_toNat hc h1 ht.lt
    have hmx := truncDindirMax_eq hc h1 ht.lt
    have hX := Nat.div_add_mod (t.toNat - c.direct - c.indirBlocks) c.dindirData
    have hXl := Nat.mod_lt (t.toNat - c.direct - c.indirBlocks) (dindirData_pos hc)
    have hbase : t.toNat - ((seekCoord c t).indirEntry.toNat + (seekCoord c t).dindirEntry.toNat * c.indirEntries) =
        c.direct + c.indirBlocks + (t.toNat - c.direct - c.indirBlocks) / c.dindirData * c.indirEntries * c.indirEntries := by
      rw [Nat.mul_assoc, show c.indirEntries * c.indirEntries = c.dindirData from rfl, Nat.mul_comm _ c.dindirData]
      omega
    rw [hbase] at hmx ⊢
    dsimp only at hmx
    generalize hQ : (t.toNat - c.direct - c.indirBlocks) / c.dindirData * c.indirEntries = Q0 at hmx ⊢ hbase
    generalize hT : c.dataBlocks - (c.direct + c.indirBlocks + Q0 * c.indirEntries) = T at hmx ⊢
    rw [← hmx]
    refine SimAt.bind (R := fun a b => a = b) ?_ fun _ _ s3 _ e3 => SimAt.refl _ _
    refine truncDindirLoop_sim hc _ _ Q0 ?_ 65536 _ t t.toNat a' (by have := (truncDindirMax c t (seekCoord c t).dindirEntry (seekCoord c t).indirEntry).isLt; omega)
      ht1.coherent fun _ => ⟨rfl, h1, ?_⟩
    · intro d hd
      rw [hmx] at hd
      have hTm := Nat.div_add_mod T c.indirEntries
      have hd2 : d + 1 < T / c.indirEntries + (if T % c.indirEntries ≠ 0 then 1 else 0) := by omega
      have hd3 : (d + 1) * c.indirEntries < T := by
        split at hd2
        · have := Nat.mul_le_mul_right c.indirEntries (show d + 1 ≤ T / c.indirEntries by omega)
          rw [Nat.mul_comm (T / c.indirEntries)] at this
          omega
        · have := Nat.mul_lt_mul_of_pos_right (show d + 1 < T / c.indirEntries by omega) (show 0 < c.indirEntries by omega)
          rw [Nat.mul_comm (T / c.indirEntries)] at this
          omega
      have : (Q0 + d + 1) * c.indirEntries = Q0 * c.indirEntries + (d + 1) * c.indirEntries := by rw [← Nat.add_mul, Nat.add_assoc]
      omega
    · rw [hdb, ← hQ]
      have : t.toNat - c.direct - c.indirBlocks = (t.toNat - c.direct - c.indirBlocks) % c.dindirData +
          (t.toNat - c.direct - c.indirBlocks) / c.dindirData * c.indirEntries * c.indirEntries := by
        rw [Nat.mul_assoc, show c.indirEntries * c.indirEntries = c.dindirData from rfl, Nat.mul_comm _ c.dindirData]
        omega
      conv => lhs; rw [this, Nat.add_mul_div_right _ _ (show 0 < c.indirEntries by omega)]
      omega

theorem shrinkDirect_sim (hc : c.Ok) : ∀ fuel (t : U32) s, c.direct - t.toNat ≤ fuel → Coherent c s.ci →
    match shrinkDirect c fuel t s, RedFs.shrinkDirect c (c.direct - t.toNat) t.toNat s with
    | (.ok a, s1), (.ok (), s2) => a.toNat = max t.toNat c.direct ∧ Coherent c s1.ci ∧ s1 = s2
    | (.error e, s1), (.error e', s2) => e = e' ∧ s1 = s2
    | _, _ => False := by
  have hd := direct_le hc
  intro fuel
  induction fuel with
  | zero =>
    intro t s h hs
    unfold shrinkDirect
    rw [if_pos ((le_toNat _ _).2 (by rw [direct_toNat hc]; omega)), show c.direct - t.toNat = 0 by omega]
    exact ⟨by omega, hs, rfl⟩
  | succ fuel ih =>
    intro t s h hs
    unfold shrinkDirect
    by_cases hk : direct c ≤ t
    · rw [if_pos hk]
      rw [le_toNat, direct_toNat hc] at hk
      rw [show c.direct - t.toNat = 0 by omega]
      exact ⟨by omega, hs, rfl⟩
    rw [if_neg hk]
    rw [le_toNat, direct_toNat hc] at hk
    have hsc : (t + 1).toNat = t.toNat + 1 := by rw [add32 (by rw [one32]; omega), one32]
    rw [show c.direct - t.toNat = (c.direct - (t + 1).toNat) + 1 by omega]
    unfold RedFs.shrinkDirect
    dsimp only
    simp only [run_bind, run_get]
    have h1 := truncData_kc (c := c) (s.ci.node.entries t.toNat) s
    rcases hm : truncData c (s.ci.node.entries t.toNat) s with ⟨r, s1⟩
    rw [hm] at h1
    cases r with
    | error e => exact ⟨rfl, rfl⟩
    | ok u =>
      dsimp only
      have h2 := kc_onlyIf (p := s.ci.node.entries t.toNat ≠ 0) (kc_setNode (f := (·.setEntry t.toNat 0))) (d := ()) s1
      rcases hm2 : (onlyIf (s.ci.node.entries t.toNat ≠ 0) (setNode (·.setEntry t.toNat 0)) () : DM Unit) s1 with ⟨r, s2⟩
      rw [hm2] at h2
      cases r with
      | error e => exact ⟨rfl, rfl⟩
      | ok u =>
        dsimp only
        have := ih (t + 1) s2 (by omega) ((hs.of h1).of h2)
        rw [hsc] at this ⊢
        rw [show max t.toNat c.direct = max (t.toNat + 1) c.direct by omega]
        exact this

theorem shrinkIndir_coh (hc : c.Ok) : ∀ fuel t, KeepCoh c (RedFs.shrinkIndir c fuel t)
  | 0, t => by
    unfold RedFs.shrinkIndir
    split
    · exact (kc_fail _).kcoh
    · exact (kc_pure _).kcoh
  | fuel + 1, t => by
    have h := fun t => shrinkIndir_coh hc fuel t
    unfold RedFs.shrinkIndir
    split
    · exact (seekData_coh hc t).bind fun _ => truncIndir_kc.kcoh.bind fun _ => kc_get.kcoh.bind fun _ => (kc_onlyIf kc_setNode).kcoh.bind fun _ => h _
    · exact (kc_pure _).kcoh

theorem dind_toNat (hc : c.Ok) : (direct c + indirBlocks c).toNat = c.direct + c.indirBlocks := by
  have := direct_le hc
  have := indirBlocks_le hc
  rw [add32 (by rw [direct_toNat hc, indirBlocks_toNat hc]; omega), direct_toNat hc, indirBlocks_toNat hc]

attribute [local irreducible] truncIndir RedFs.truncIndir in
theorem shrinkIndir_sim (hc : c.Ok) : ∀ fuel fuel' (t : U32) s, c.direct + c.indirBlocks - t.toNat ≤ fuel → c.direct + c.indirBlocks - t.toNat ≤ fuel' →
    Coherent c s.ci → c.direct ≤ t.toNat →
    SimAt (fun a b => a.toNat = b ∧ c.direct + c.indirBlocks ≤ b) (shrinkIndir c fuel t) (RedFs.shrinkIndir c fuel' t.toNat) s := by
  have hi := indirEntries_bounds hc
  have done : ∀ fuel fuel' (t : U32) s, c.direct + c.indirBlocks ≤ t.toNat →
      SimAt (fun a b => a.toNat = b ∧ c.direct + c.indirBlocks ≤ b) (shrinkIndir c fuel t) (RedFs.shrinkIndir c fuel' t.toNat) s := by
    intro fuel fuel' t s h
    unfold shrinkIndir
    rw [if_pos ((le_toNat _ _).2 (by rw [dind_toNat hc]; exact h))]
    cases fuel' with
    | zero => unfold RedFs.shrinkIndir; rw [if_neg (by omega)]; exact SimAt.pure ⟨rfl, h⟩
    | succ n => unfold RedFs.shrinkIndir; rw [if_neg (by omega)]; exact SimAt.pure ⟨rfl, h⟩
  intro fuel
  induction fuel with
  | zero => intro fuel' t s h _ _ _; exact done _ _ _ _ (by omega)
  | succ fuel ih =>
    intro fuel' t s h h' hs h1
    by_cases hk : c.direct + c.indirBlocks ≤ t.toNat
    · exact done _ _ _ _ hk
    obtain ⟨fuel', rfl⟩ : ∃ n, fuel' = n + 1 := ⟨fuel' - 1, by omega⟩
    unfold shrinkIndir RedFs.shrinkIndir
    rw [if_neg (by rw [le_toNat, dind_toNat hc]; omega), if_pos (by omega)]
    dsimp only
    refine SimAt.bind (SimAt.refl _ _) fun r r' s1 er e1 => ?_
    have ht := seekData_at hc hs e1
    refine SimAt.bind (R := fun a b => a = b) (by unfold SimAt; rw [truncIndir_eq hc h1 s1 ht]; exact SimAt.refl _ _) fun f f' s2 ef e2 => ?_
    subst ef
    have ht2 := truncIndir_kc.at e2 ht
    refine SimAt.bind (simGet s2) fun x y s3 hab e3 => ?_
    obtain ⟨rfl, rfl⟩ := hab
    cases e3
    refine SimAt.bind (SimAt.refl _ _) fun _ _ s4 _ e4 => ?_
    have ht4 := (kc_onlyIf kc_setNode).at e4 ht2
    have hl := (indirEntry_le hc h1 ht.lt).2
    obtain ⟨en, le⟩ := truncNextIndir_eq hc h1 (by omega)
    have e5 : x.ci.indirEntry.getD 0 = (seekCoord c t).indirEntry.toNat := by rw [ht2.ind, entryOf_some rfl (by omega)]; rfl
    rw [ht2.e2, e5, ← en]
    exact ih fuel' _ s4 (by rw [en]; omega) (by rw [en]; omega) ht4.coherent (by rw [en]; omega)

theorem shrinkDindir_done (hc : c.Ok) {fuel fuel' : Nat} {t : U32} {s : DS} (h : c.dataBlocks ≤ t.toNat) :
    SimAt (fun (a b : Unit) => a = b) (shrinkDindir c fuel t) (RedFs.shrinkDindir c fuel' t.toNat) s := by
  have h1 : shrinkDindir c fuel t = pure () := by
    cases fuel <;> (unfold shrinkDindir; rw [if_pos ((le_toNat _ _).2 (by rw [dataBlocks_toNat hc]; exact h))])
  have h2 : RedFs.shrinkDindir c fuel' t.toNat = pure () := by
    cases fuel' <;> (unfold RedFs.shrinkDindir; rw [if_neg (by omega)])
  rw [h1, h2]
  exact SimAt.pure rfl

attribute [local irreducible] truncDindir RedFs.truncDindir SimAt in
theorem shrinkDindir_sim (hc : c.Ok) : ∀ fuel fuel' (t : U32) s, c.dataBlocks - t.toNat ≤ fuel → c.dataBlocks - t.toNat ≤ fuel' →
    Coherent c s.ci → c.direct + c.indirBlocks ≤ t.toNat → SimAt (fun (a b : Unit) => a = b) (shrinkDindir c fuel t) (RedFs.shrinkDindir c fuel' t.toNat) s := by
  have hi := indirEntries_bounds hc
  intro fuel
  induction fuel with
  | zero => intro fuel' t s h _ _ _; exact shrinkDindir_done hc (show c.dataBlocks ≤ t.toNat by omega)
  | succ fuel ih =>
    intro fuel' t s h h' hs h1
    by_cases hk : c.dataBlocks ≤ t.toNat
    · exact shrinkDindir_done hc hk
    obtain ⟨fuel', rfl⟩ : ∃ n, fuel' = n + 1 := ⟨fuel' - 1, by omega⟩
    unfold shrinkDindir RedFs.shrinkDindir
    rw [if_neg (by rw [le_toNat, dataBlocks_toNat hc]; omega), if_pos (by omega)]
    dsimp only
    refine SimAt.bind (SimAt.refl _ _) fun r r' s1 er e1 => ?_
    have ht := seekData_at hc hs e1
    refine SimAt.bind (simGet s1) fun x y s2 hab e2 => ?_
    obtain ⟨rfl, rfl⟩ := hab
    cases e2
    refine SimAt.bind (truncDindir_sim hc h1 x ht) fun f f' s3 ef e3 => ?_
    subst ef
    have hc3 := truncDindir_coh hc _ _ _ ht.coherent e3
    refine SimAt.bind (SimAt.refl _ _) fun _ _ s4 _ e4 => ?_
    have hc4 := (kc_onlyIf kc_setNode).coh e4 hc3
    have hdb := (seekCoord_dindir hc h1 ht.lt).2.1
    have hco := dindir_coord hc h1 ht.lt
    have hkk := dindir_k hc h1 ht.lt
    have hml := Nat.mod_lt (t.toNat - c.direct - c.indirBlocks) (show 0 < c.indirEntries by omega)
    have ho := off_toNat hc h1 ht.lt
    have hXl := Nat.mod_lt (t.toNat - c.direct - c.indirBlocks) (dindirData_pos hc)
    have d1 : x.ci.dindirEntry.getD 0 = (seekCoord c t).dindirEntry.toNat := by rw [ht.dind, entryOf_some rfl (by omega)]; rfl
    have d2 : x.ci.indirEntry.getD 0 = (seekCoord c t).indirEntry.toNat := by rw [ht.ind, entryOf_some rfl (by omega)]; rfl
    obtain ⟨en, le⟩ := truncNextDindir_eq hc h1 ht.lt
    rw [ht.e1, ht.e2, d1, d2, ← en]
    exact ih fuel' _ s4 (by rw [en]; omega) (by rw [en]; omega) hc4 (by rw [en]; omega)

/-- `Shrink`. -/
theorem shrink_sim (hc : c.Ok) {size : U64} (hz : size.toNat ≤ c.sizeMax) {fuel : Nat} (hf : c.dataBlocks ≤ fuel) (s : DS) (hs : Coherent c s.ci) :
    SimAt (fun a b => a = b) (shrink c fuel size) (RedFs.shrink c size.toNat) s := by
  obtain ⟨et, lt⟩ := truncBlock_eq hc hz
  have hD : c.direct + c.indirBlocks ≤ c.dataBlocks := Nat.le_add_right _ _
  unfold shrink RedFs.shrink
  refine SimAt.bind (simGet s) fun a b s' hab e' => ?_
  obtain ⟨rfl, rfl⟩ := hab
  cases e'
  have hcond : (a.ci.nodeBuf = none ∨ (0 < size ∧ a.ci.dirty = false)) ↔ (a.ci.nodeBuf = none ∨ (0 < size.toNat ∧ a.ci.dirty = false)) := by
    rw [lt_toNat, zero64]
  by_cases hb : a.ci.nodeBuf = none ∨ (0 < size.toNat ∧ a.ci.dirty = false)
  · rw [if_pos hb, if_pos (hcond.2 hb)]; exact SimAt.fail
  rw [if_neg hb, if_neg (fun x => hb (hcond.1 x)), ← et]
  dsimp only
  refine SimAt.bind (SimAt.refl _ _) fun _ _ s1 _ e1 => ?_
  have hs1 : Coherent c s1.ci := (kc_setCi (f := fun ci => { ci with pData := none }) fun _ => rfl).coh e1 hs
  refine SimAt.bind (R := fun a _ => a.toNat = max (truncBlock c size).toNat c.direct) ?_ fun t _ s2 ht e2 => ?_
  · have := shrinkDirect_sim hc fuel (truncBlock c size) s1 (by omega) hs1
    unfold SimAt
    rcases h1 : shrinkDirect c fuel (truncBlock c size) s1 with ⟨r, s2⟩
    rcases h2 : RedFs.shrinkDirect c (c.direct - (truncBlock c size).toNat) (truncBlock c size).toNat s1 with ⟨r', s3⟩
    rw [h1, h2] at this
    cases r <;> cases r' <;> first | exact this.elim | exact this | exact ⟨this.1, this.2.2⟩
  · have hs2 : Coherent c s2.ci := by
      have := shrinkDirect_sim hc fuel (truncBlock c size) s1 (by omega) hs1
      rcases h1 : shrinkDirect c fuel (truncBlock c size) s1 with ⟨r, s2'⟩
      rw [h1, e2] at this
      cases r with
      | error e => exact this.elim
      | ok v => obtain ⟨_, h, rfl⟩ := this; exact h
    rw [← ht]
    refine SimAt.bind (shrinkIndir_sim hc fuel c.dataBlocks t s2 (by omega) (by omega) hs2 (by omega)) fun x y s3 hxy e3 => ?_
    obtain ⟨rfl, hge⟩ := hxy
    have hs3 := shrinkIndir_coh hc _ _ _ _ _ hs2 e3
    by_cases hp : c.dindirPtrs > 0
    · rw [if_pos (by show 0 < dindirPtrs c; rw [lt_toNat, dindirPtrs_toNat hc]; exact hp), if_pos hp]
      exact shrinkDindir_sim hc fuel c.dataBlocks x s3 (by omega) (by omega) hs3 hge
    · rw [if_neg (by show ¬ 0 < dindirPtrs c; rw [lt_toNat, dindirPtrs_toNat hc]; exact hp), if_neg hp]
      exact SimAt.pure rfl

end RedFs.Words
