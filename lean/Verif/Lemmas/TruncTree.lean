import Verif.Lemmas.TruncNode
set_option linter.unusedSimpArgs false
set_option linter.unusedVariables false
namespace RedFs
open M Bitmap Vol

variable {c : Conf} {O : Nat → Prop} {s s' s1 s2 : DS} {V V' V1 V2 : Pos → Nat} {Z Z' Z1 Z2 G G1 G2 : Pos → Prop}

/-- The inode entry above a position. -/
def Pos.root : Pos → Nat
  | .ent e => e
  | .sub p _ => p.root

/-- The coordinates are below entry `e`. -/
def AtEnt (c : Conf) (ci : Cinode) (e : Nat) : Prop :=
  ci.inodeEntry = e ∧ ∃ b, b < c.dataBlocks ∧ ci.logical = b ∧ (posOf c b).root = e

theorem AtEnt.seekPre {ci : Cinode} {e b : Nat} (h : AtEnt c ci e) (hne : (posOf c b).root ≠ e) : SeekPre c ci V b := by
  intro _
  obtain ⟨h1, b0, h2, h3, h4⟩ := h
  refine ⟨fun hl => ?_, fun _ => ?_⟩
  · rw [h3] at hl; subst hl; exact absurd h4 hne
  · generalize posOf c b = p at hne
    rcases p with x | ⟨x | ⟨x | ⟨x, _⟩, _⟩, _⟩
    · trivial
    · intro hx; rw [h1] at hx; exact absurd hx.symm hne
    · intro hx; rw [h1] at hx; exact absurd hx.symm hne
    · trivial

theorem Away.atEnt {ci : Cinode} {a : Pos} {b k : Nat} (hb : b < c.dataBlocks) (hpos : posOf c b = .sub a k) (h : Away c ci V a b k) :
    AtEnt c ci a.root := by
  refine ⟨?_, b, hb, h.logical, by rw [hpos]; rfl⟩
  have := h.up
  rcases a with e | ⟨e | ⟨p, d⟩, d'⟩
  · exact this
  · exact this.1
  · exact this.elim

theorem Coh.atEnt {ci : Cinode} {b : Nat} (hc : c.Ok) (hb : b < c.dataBlocks) (h : Coh c ci V b) : AtEnt c ci (posOf c b).root := by
  refine ⟨?_, b, hb, h.logical, rfl⟩
  have h1 := coord_posOf hc hb
  have h2 := h.pos
  generalize posOf c b = p at *
  cases h1 with
  | direct => exact h2.1
  | indir => exact h2.1
  | dindir => exact h2.1

theorem costAt_le (s : DS) (V : Pos → Nat) (p : Pos) : costAt c s V p ≤ 1 := by unfold costAt; split <;> omega

/-- Proper ancestor. -/
def Above (p q : Pos) : Prop := (∃ k, q = .sub p k) ∨ ∃ d k, q = .sub (.sub p d) k
/-- A node above logical block `t`, with blocks before `t`, that is not writable. -/
def OldAbove (c : Conf) (v : Vol) (V : Pos → Nat) (t : Nat) : Prop :=
  t < c.dataBlocks ∧ ∃ p, PosOk c p ∧ V p ≠ 0 ∧ ¬ NewB c v (V p) ∧ p.first c < t ∧ Above p (posOf c t)

/-- Result of the loop of `TruncDindir`. -/
structure DLoop (c : Conf) (O : Nat → Prop) (s s' : DS) (V V' : Pos → Nat) (Z' G : Pos → Prop) (e d k n : Nat) (fB : Bool) : Prop where
  sh : Sh c O s s' V V' Z' G
  later : ∀ d', d < d' → d' < d + n → PosOk c (.sub (.ent e) d') → V' (.sub (.ent e) d') = 0
  here : 0 < n → k = 0 → PosOk c (.sub (.ent e) d) → V' (.sub (.ent e) d) = 0
  leaves : 0 < n → ∀ k', k ≤ k' → PosOk c (.sub (.sub (.ent e) d) k') → V' (.sub (.sub (.ent e) d) k') = 0
  back : ∀ p, PosOk c p → G p → p.lvl c = 0 → (Pos.ent e).first c + d * c.indirEntries + k ≤ p.first c ∧ p.root = e
  top : ¬ G (.ent e)
  zs : ∀ p, Z' p → ∃ d', p = .sub (.ent e) d'
  zb : fB = true → Z' = noZ
  all : fB = false → ∀ d', d ≤ d' → d' < d + n → PosOk c (.sub (.ent e) d') → V' (.sub (.ent e) d') = 0
  co : 0 < n → AtEnt c s'.ci e ∧ s'.ci.dindirBlk = V' (.ent e)

theorem truncDindirLoop_spec (hc : c.Ok) {e : Nat} (he1 : c.direct + c.indirect ≤ e) (he2 : e < c.inodeEntries) (fB : Bool) :
    ∀ (n d k : Nat) (s : DS) (V : Pos → Nat) (Z : Pos → Prop),
    FInv c O s V Z → Cnt c s V → V (.ent e) ≠ 0 → k < c.indirEntries → d + n ≤ c.indirEntries →
    (∀ d', d' < d + n → (Pos.ent e).first c + d' * c.indirEntries < c.dataBlocks) →
    (n ≠ 0 → (Pos.ent e).first c + d * c.indirEntries + k < c.dataBlocks) →
    (n ≠ 0 → SeekPre c s.ci V ((Pos.ent e).first c + d * c.indirEntries + k)) →
    (∀ p, Z p → ∃ d', d' < d ∧ p = .sub (.ent e) d') →
    (fB = true → Z = noZ ∧ NewB c s.v (V (.ent e))) →
    (0 < k → Z = noZ ∧ s.ci.dirty = true) →
    (fB = false → ∀ k', k' < k → V (.sub (.sub (.ent e) d) k') = 0) →
    (0 < k ∧ fB = true ∧ ∃ s1, truncDindirLoop c fB n d ((Pos.ent e).first c + d * c.indirEntries + k) s = (.error .enospc, s1) ∧
      Ro c V s s1 ∧ freeBlockCount c s.v < 1 ∧ V (.sub (.ent e) d) ≠ 0 ∧ ¬ NewB c s.v (V (.sub (.ent e) d))) ∨
    ∃ s' V' Z' G, truncDindirLoop c fB n d ((Pos.ent e).first c + d * c.indirEntries + k) s = (.ok (), s') ∧
      DLoop c O s s' V V' Z' G e d k n fB := by
  have hl2 : (Pos.ent e).lvl c = 2 := by simp only [Pos.lvl, Conf.height]; rw [if_neg (by omega), if_neg (by omega)]
  have hF : (Pos.ent e).first c = c.direct + c.indirBlocks + (e - c.direct - c.indirect) * c.dindirData := by
    simp only [Pos.first]; rw [if_neg (by omega), if_neg (by omega)]
  generalize hFx : (Pos.ent e).first c = F at hF ⊢
  have hie := hc.ie_pos
  intro n
  induction n with
  | zero =>
    intro d k s V Z h hcnt hn hk hd hin hb hsp hZ hfB hk0 hfe
    right
    refine ⟨s, V, Z, fun _ => False, rfl, ?_⟩
    exact { sh := .refl h hcnt, later := fun d' _ _ => by omega, here := fun h => by omega, leaves := fun h => by omega,
            back := fun _ _ h => h.elim, top := fun h => h, zs := fun p hp => by obtain ⟨d', _, e⟩ := hZ p hp; exact ⟨d', e⟩,
            zb := fun hb => (hfB hb).1, all := fun _ d' _ _ => by omega, co := fun h => by omega }
  | succ n ih =>
    intro d k s V Z h hcnt hn hk hd hin hb hsp hZ hfB hk0 hfe
    have hb' := hb (by omega)
    have hsp' := hsp (by omega)
    have hpos : posOf c (F + d * c.indirEntries + k) = .sub (.sub (.ent e) d) k := by
      refine (Coord.eq hc (.dindir e d k he1 he2 (by omega) hk ?_)).symm
      rw [hF]
    have hpd : PosOk c (.sub (.ent e) d) := ⟨he2, by omega, by omega⟩
    have hld : (Pos.sub (.ent e) d).lvl c = 1 := by
      show (Pos.ent e).lvl c - 1 = 1; omega
    have hfd : (Pos.sub (.ent e) d).first c = F + d * c.indirEntries := by
      show (Pos.ent e).first c + d * (if (Pos.ent e).lvl c = 1 then 1 else c.indirEntries) = _
      rw [hFx, if_neg (by omega)]
    have hzd : ¬ Z (.sub (.ent e) d) := by
      intro hz; obtain ⟨d', h1, h2⟩ := hZ _ hz; injection h2 with _ h2; omega
    have hzk : ∀ k', ¬ Z (.sub (.sub (.ent e) d) k') := by
      intro k' hz; obtain ⟨d', h1, h2⟩ := hZ _ hz; injection h2 with h2 _; cases h2
    have hze : ¬ Z (.ent e) := by
      intro hz; obtain ⟨d', h1, h2⟩ := hZ _ hz; cases h2
    have hnz : NoZPath Z (posOf c (F + d * c.indirEntries + k)) := by
      rw [hpos]; exact ⟨hzk k, hzd, hze⟩
    obtain ⟨ci1, e1, hco, hsame, _⟩ := seekData_spec hc h hb' hnz hsp'
    unfold truncDindirLoop
    simp only [run_bind, e1, run_get]
    have sh0 := Sh.of_ci hsame h hcnt
    have hib : ci1.indirBlk = V (.sub (.ent e) d) := (hco.node hc hb' hpos).1
    -- the step
    have hstep : (0 < k ∧ fB = true ∧ ∃ s1, onlyIf (ci1.indirBlk ≠ 0) (do
          let freed ← truncIndir c
          onlyIf (fB ∧ freed) (do
            let s ← get
            liftV (setPtr (s.ci.pDindir.getD 0) d 0)) ()) () { s with ci := ci1 } = (.error .enospc, s1) ∧ Ro c V s s1 ∧ freeBlockCount c s.v < 1 ∧ V (.sub (.ent e) d) ≠ 0 ∧ ¬ NewB c s.v (V (.sub (.ent e) d))) ∨
        ∃ s2 V2 Z2 G2, onlyIf (ci1.indirBlk ≠ 0) (do
          let freed ← truncIndir c
          onlyIf (fB ∧ freed) (do
            let s ← get
            liftV (setPtr (s.ci.pDindir.getD 0) d 0)) ()) () { s with ci := ci1 } = (.ok (), s2) ∧
          Sh c O s s2 V V2 Z2 G2 ∧ (k = 0 → V2 (.sub (.ent e) d) = 0) ∧ (fB = false → V2 (.sub (.ent e) d) = 0) ∧
          (∀ k', k ≤ k' → PosOk c (.sub (.sub (.ent e) d) k') → V2 (.sub (.sub (.ent e) d) k') = 0) ∧
          (∀ p, G2 p → p = .sub (.ent e) d ∨ ∃ k', k ≤ k' ∧ p = .sub (.sub (.ent e) d) k') ∧
          (∀ p, Z2 p → ∃ d', d' < d + 1 ∧ p = .sub (.ent e) d') ∧ (fB = true → Z2 = noZ) ∧
          AtEnt c s2.ci e ∧ s2.ci.dindirBlk = V2 (.ent e) ∧ s2.ci.indirEntry = some k ∧ s2.ci.inited = true ∧
          (∀ b2, b2 < c.dataBlocks → (∀ k', posOf c b2 ≠ .sub (.sub (.ent e) d) k') → SeekPre c s2.ci V2 b2) := by
      by_cases h0 : V (.sub (.ent e) d) = 0
      · right
        refine ⟨{ s with ci := ci1 }, V, Z, fun _ => False, ?_, sh0, fun _ => h0, fun _ => h0, fun k' _ hp => h.child0 hp h0, fun _ h => h.elim,
          fun p hp => ?_, fun hb => (hfB hb).1, ?_, ?_, ?_, hco.inited, fun b2 hb2 _ => hco.seekPre hc hb' hb2⟩
        · rw [onlyIf_neg (by rw [hib]; simpa using h0)]
        · obtain ⟨d', g1, g2⟩ := hZ p hp; exact ⟨d', by omega, g2⟩
        · have := hco.atEnt hc hb'; rw [hpos] at this; exact this
        · have := (hco.node hc hb' hpos).2.2.1.up; exact this.2.2.1
        · exact (hco.node hc hb' hpos).2.2.1.indirEntry
      · rw [onlyIf_pos (by rw [hib]; exact h0)]
        simp only [run_bind]
        rcases truncIndir_spec hc sh0.inv sh0.cnt hb' hpos hco hzk hzd (fun hkk => ⟨(hk0 hkk).1, hsame.dirty.trans (hk0 hkk).2⟩) with
          ⟨g1, g2, g3, g4, k', g5, g6⟩ | ⟨freed, s1, V1, g1, g2, g3, g4, g5, g6⟩
        · left
          have hfBt : fB = true := by
            cases hx : fB with
            | true => rfl
            | false => exact absurd (hfe hx k' g5) g6
          refine ⟨g1, hfBt, { s with ci := ci1 }, by rw [g2], ⟨rfl, hsame, hco.seekAll hc hb'⟩, ?_⟩
          have hN := (hfB hfBt).2
          rw [hpos] at g3
          have : brCost c { s with ci := ci1 } V 1 (.sub (.sub (.ent e) d) k) = costAt c { s with ci := ci1 } V (.ent e) + costAt c { s with ci := ci1 } V (.sub (.ent e) d) + 0 := by
            simp [brCost, anc, ancI, ancX, costOf]
          rw [this] at g3
          have z0 : costAt c { s with ci := ci1 } V (.ent e) = 0 := by unfold costAt; rw [if_pos ⟨hn, hN⟩]
          have := costAt_le (c := c) { s with ci := ci1 } V (.sub (.ent e) d)
          have g3' : freeBlockCount c s.v < 0 + costAt c { s with ci := ci1 } V (.sub (.ent e) d) + 0 := by rw [z0] at g3; exact g3
          refine ⟨by omega, h0, fun hN' => ?_⟩
          have : costAt c { s with ci := ci1 } V (.sub (.ent e) d) = 0 := by unfold costAt; rw [if_pos ⟨h0, hN'⟩]
          omega
        · right
          rw [g1]
          simp only
          have sh1 := sh0.trans hc g2
          have hfree : fB = false → freed = true := by
            intro hx
            cases hf : freed with
            | true => rfl
            | false =>
              obtain ⟨k', q1, q2⟩ := g6 hf h0
              exact absurd (hfe hx k' q1) q2
          have hVd : freed = true → V1 (.sub (.ent e) d) = 0 := fun hf => g2.gone _ hpd (Or.inr ⟨hf, rfl⟩)
          have hlv : ∀ k', k ≤ k' → PosOk c (.sub (.sub (.ent e) d) k') → V1 (.sub (.sub (.ent e) d) k') = 0 :=
            fun k' hkk hp => g2.gone _ hp (Or.inl ⟨k', hkk, rfl⟩)
          have hVe : V1 (.ent e) ≠ 0 := by
            refine sh1.keep _ he2 ?_ hn
            rintro (h1 | ⟨k', _, h2⟩ | ⟨_, h2⟩)
            · exact h1
            · cases h2
            · cases h2
          have hup := g3.up
          obtain ⟨u1, u2, u3, u4⟩ := hup
          have hGG : ∀ p, (False ∨ cutI (.sub (.ent e) d) k freed p) → p = .sub (.ent e) d ∨ ∃ k', k ≤ k' ∧ p = .sub (.sub (.ent e) d) k' := by
            rintro p (h1 | ⟨k', g, h2⟩ | ⟨_, h2⟩)
            · exact h1.elim
            · exact Or.inr ⟨k', g, h2⟩
            · exact Or.inl h2
          by_cases hboth : fB = true ∧ freed = true
          · obtain ⟨hx, hf⟩ := hboth
            have hN1 : NewB c s1.v (V1 (.ent e)) := sh1.new _ he2 hVe (hfB hx).2
            have hpd1 : s1.ci.pDindir.getD 0 = V1 (.ent e) := by rw [u4, u3]; simp [nz, hVe]
            obtain ⟨s2, f1, f2, f3, f4⟩ := clearPtr_spec hc g2.inv g2.cnt hpd hVe hN1 (hVd hf)
            rw [onlyIf_pos (by exact ⟨hx, hf⟩)]
            simp only [run_bind, run_get, hpd1, f1]
            have hZZ := (hfB hx).1
            subst hZZ
            have ez : (fun x => (noZ x ∨ (freed = true ∧ x = Pos.sub (.ent e) d)) ∧ x ≠ .sub (.ent e) d) = noZ := by
              funext x; simp [noZ, hf]
            rw [ez] at f4
            refine ⟨s2, V1, noZ, _, rfl, sh1.trans hc f4, fun _ => hVd hf, fun _ => hVd hf, hlv, ?_, fun _ h => h.elim, fun _ => rfl, ?_, ?_, ?_, ?_, ?_⟩
            · rintro p (h1 | h1)
              · exact hGG p h1
              · exact h1.elim
            · rw [f2]; exact g3.atEnt hb' hpos
            · rw [f2]; exact u3
            · rw [f2]; exact g3.indirEntry
            · rw [f2]; exact g3.inited
            · intro b2 hb2 hne; rw [f2]; exact g3.seekPre hc hb' hpos hb2 hne
          · rw [onlyIf_neg hboth]
            refine ⟨s1, V1, _, _, rfl, sh1, g4, fun hx => hVd (hfree hx), hlv, hGG, ?_, ?_, g3.atEnt hb' hpos, u3, g3.indirEntry, g3.inited,
              fun b2 hb2 hne => g3.seekPre hc hb' hpos hb2 hne⟩
            · rintro p (hp | ⟨_, hp⟩)
              · obtain ⟨d', q1, q2⟩ := hZ p hp; exact ⟨d', by omega, q2⟩
              · exact ⟨d, by omega, hp⟩
            · intro hx
              have hf : freed = false := by
                cases hf : freed with
                | false => rfl
                | true => exact absurd ⟨hx, hf⟩ hboth
              have hZZ := (hfB hx).1
              subst hZZ
              funext x; simp [noZ, hf]
    rcases hstep with ⟨g0, g1, s1, g2, g3, g4⟩ | ⟨s2, V2, Z2, G2, g1, sh2, q1, q2, q3, q4, q5, q6, q7, q8, q9, q10, q11⟩
    · left
      refine ⟨g0, g1, s1, ?_, g3, g4⟩
      rw [g2]
    · rw [g1]
      simp only [q9, Option.getD_some]
      have hnext : F + d * c.indirEntries + k + (c.indirEntries - k) = F + (d + 1) * c.indirEntries + 0 := by
        rw [Nat.add_mul]; omega
      rw [hnext]
      have hVe : V2 (.ent e) ≠ 0 := by
        refine sh2.keep _ he2 ?_ hn
        intro hg
        rcases q4 _ hg with h1 | ⟨k', _, h1⟩ <;> cases h1
      rcases ih (d + 1) 0 s2 V2 Z2 sh2.inv sh2.cnt hVe (by omega) (by omega) (fun d' h => hin d' (by omega))
        (fun hn0 => by have := hin (d + 1) (by omega); omega)
        (fun hn0 => by
          have hlt := hin (d + 1) (by omega)
          refine q11 _ (by omega) ?_
          intro k'
          have : posOf c (F + (d + 1) * c.indirEntries + 0) = .sub (.sub (.ent e) (d + 1)) 0 := by
            refine (Coord.eq hc (.dindir e (d + 1) 0 he1 he2 (by omega) (by omega) ?_)).symm
            rw [hF]
          rw [this]; intro h; injection h with h _; injection h with _ h; omega)
        q5 (fun hx => ⟨q6 hx, sh2.new _ he2 hVe (hfB hx).2⟩) (fun h => absurd h (by omega)) (fun _ k' h => absurd h (by omega)) with
        ⟨h1, _⟩ | ⟨s3, V3, Z3, G3, e3, L⟩
      · omega
      · right
        refine ⟨s3, V3, Z3, fun p => G2 p ∨ G3 p, e3, ?_⟩
        have mono : ∀ p, PosOk c p → V2 p = 0 → V3 p = 0 := by
          intro p hp h0
          apply Decidable.byContradiction; intro hne
          exact L.sh.sub p hp hne h0
        refine { sh := sh2.trans hc L.sh, later := ?_, here := fun _ hk' hp => mono _ hp (q1 hk'), leaves := fun _ k' hkk hp => mono _ hp (q3 k' hkk hp), back := ?_, top := ?_, zs := L.zs, zb := L.zb, all := ?_, co := ?_ }
        · intro d' h1 h2 hp
          by_cases hd' : d' = d + 1
          · subst hd'; exact L.here (by omega) rfl hp
          · exact L.later d' (by omega) (by omega) hp
        · rintro p hp (hg | hg) hl0
          · rcases q4 p hg with rfl | ⟨k', hkk, rfl⟩
            · omega
            · have h1 := hp.2.2
              have : (Pos.sub (.sub (.ent e) d) k').first c = F + d * c.indirEntries + k' := by
                have : (Pos.sub (.sub (.ent e) d) k').first c = (Pos.sub (.ent e) d).first c + k' * (if (Pos.sub (.ent e) d).lvl c = 1 then 1 else c.indirEntries) := rfl
                rw [this, hfd, if_pos hld]; omega
              rw [this]; exact ⟨by omega, rfl⟩
          · obtain ⟨h1, h2⟩ := L.back p hp hg hl0
            rw [hFx, Nat.add_mul d 1] at h1
            exact ⟨by omega, h2⟩
        · rintro (hg | hg)
          · rcases q4 _ hg with h1 | ⟨k', _, h1⟩ <;> cases h1
          · exact L.top hg
        · intro hx d' h1 h2 hp
          by_cases hd' : d' = d
          · subst hd'; exact mono _ hp (q2 hx)
          · exact L.all hx d' (by omega) (by omega) hp
        · intro _
          by_cases hn0 : n = 0
          · subst hn0
            have : (s3, V3 (.ent e)) = (s2, V3 (.ent e)) := by
              have e4 : truncDindirLoop c fB 0 (d + 1) (F + (d + 1) * c.indirEntries + 0) s2 = (.ok (), s2) := rfl
              rw [e4] at e3
              injection e3 with _ e3; rw [e3]
            injection this with this _
            subst this
            refine ⟨q7, q8.trans ?_⟩
            -- no change of the tree at the top: both describe the same state
            rw [sh2.inv.ent e he2 (by intro hz; obtain ⟨d', _, h2⟩ := q5 _ hz; cases h2)]
            rw [L.sh.inv.ent e he2 (by intro hz; obtain ⟨d', h2⟩ := L.zs _ hz; cases h2)]
          · exact L.co (by omega)

/-! ### Entries of the inode and ranges of blocks -/

/-- Number of blocks below entry `e`. -/
def Conf.span (c : Conf) (e : Nat) : Nat := if e < c.direct then 1 else if e < c.direct + c.indirect then c.indirEntries else c.dindirData

theorem firstE_succ (c : Conf) (e : Nat) : (Pos.ent (e + 1)).first c = (Pos.ent e).first c + c.span e := by
  unfold Conf.span
  simp only [Pos.first]
  have hI : c.indirBlocks = c.indirect * c.indirEntries := rfl
  by_cases h1 : e + 1 < c.direct
  · rw [if_pos h1, if_pos (by omega), if_pos (by omega)]
  · rw [if_neg h1]
    by_cases h2 : e < c.direct
    · rw [if_pos h2, if_pos h2]
      by_cases h3 : e + 1 < c.direct + c.indirect
      · rw [if_pos h3, show e + 1 - c.direct = 0 by omega]; omega
      · rw [if_neg h3, hI, show c.indirect = 0 by omega, show e + 1 - c.direct - 0 = 0 by omega]; omega
    · rw [if_neg h2, if_neg h2]
      by_cases h3 : e + 1 < c.direct + c.indirect
      · rw [if_pos h3, if_pos (by omega), if_pos (by omega), show e + 1 - c.direct = e - c.direct + 1 by omega, Nat.add_mul]; omega
      · rw [if_neg h3]
        by_cases h4 : e < c.direct + c.indirect
        · rw [if_pos h4, if_pos h4, hI, show c.indirect = e - c.direct + 1 by omega, Nat.add_mul, show e + 1 - c.direct - (e - c.direct + 1) = 0 by omega]; omega
        · rw [if_neg h4, if_neg h4, show e + 1 - c.direct - c.indirect = e - c.direct - c.indirect + 1 by omega, Nat.add_mul]; omega

theorem firstE_bound (hc : c.Ok) {p : Pos} (hp : PosOk c p) : (Pos.ent p.root).first c ≤ p.first c ∧ p.first c < (Pos.ent (p.root + 1)).first c := by
  have hie := hc.ie_pos
  have hstep := firstE_succ c
  unfold Conf.span at hstep
  rcases p with e | ⟨e | ⟨e | ⟨p, x⟩, d⟩, k⟩
  · simp only [Pos.root]
    rw [hstep e]
    have := hc.dd_pos
    refine ⟨Nat.le_refl _, ?_⟩
    split
    · omega
    · split <;> omega
  · obtain ⟨h1, h2, h3⟩ := hp
    simp only [Pos.root]
    rw [hstep e]
    have hl : (Pos.ent e).lvl c = c.height e := rfl
    have hf : (Pos.sub (.ent e) k).first c = (Pos.ent e).first c + k * (if (Pos.ent e).lvl c = 1 then 1 else c.indirEntries) := rfl
    rw [hf]
    rw [hl] at h2 ⊢
    unfold Conf.height at h2 ⊢
    split at h2
    · omega
    · next g1 =>
      rw [if_neg g1, if_neg g1]
      split
      · simp only [if_true]; omega
      · simp only [show ¬ (2 = 1) by decide, if_false]
        have : k * c.indirEntries + c.indirEntries ≤ c.indirEntries * c.indirEntries := by
          rw [← Nat.succ_mul]; exact Nat.mul_le_mul_right _ h3
        have : c.dindirData = c.indirEntries * c.indirEntries := rfl
        omega
  · obtain ⟨⟨h1, h2, h3⟩, h4, h5⟩ := hp
    simp only [Pos.root]
    rw [hstep e]
    have hl : (Pos.ent e).lvl c = c.height e := rfl
    have hl' : (Pos.sub (.ent e) d).lvl c = c.height e - 1 := rfl
    have hle : c.height e ≤ 2 := by unfold Conf.height; (repeat' split) <;> omega
    have h2' : c.height e = 2 := by rw [hl'] at h4; omega
    have hf : (Pos.sub (.sub (.ent e) d) k).first c = (Pos.ent e).first c + d * (if (Pos.ent e).lvl c = 1 then 1 else c.indirEntries) + k * (if (Pos.sub (.ent e) d).lvl c = 1 then 1 else c.indirEntries) := rfl
    rw [hf, hl, hl', h2']
    simp only [show ¬ (2 = 1) by decide, if_false, show (2 - 1 = 1) from rfl, if_true]
    have : d * c.indirEntries + c.indirEntries ≤ c.indirEntries * c.indirEntries := by
      rw [← Nat.succ_mul]; exact Nat.mul_le_mul_right _ h3
    have : c.dindirData = c.indirEntries * c.indirEntries := rfl
    unfold Conf.height at h2'
    split at h2'
    · omega
    · next g1 =>
      rw [if_neg g1]
      split at h2'
      · omega
      · next g2 => rw [if_neg g2]; omega
  · obtain ⟨⟨⟨h1, h2, h3⟩, h4, h5⟩, h6, h7⟩ := hp
    have : (Pos.sub (.sub (.sub p x) d) k |>.lvl c) = p.lvl c - 1 - 1 - 1 := rfl
    have h6' : 0 < p.lvl c - 1 - 1 := h6
    have := FInv.lvl_le (c := c) p
    omega

theorem firstE_mono (hc : c.Ok) {e e' : Nat} (h : e ≤ e') : (Pos.ent e).first c ≤ (Pos.ent e').first c := by
  have hie := hc.ie_pos
  simp only [Pos.first]
  have hI : c.indirBlocks = c.indirect * c.indirEntries := rfl
  by_cases h1 : e' < c.direct
  · rw [if_pos h1, if_pos (by omega)]; exact h
  · rw [if_neg h1]
    by_cases h2 : e' < c.direct + c.indirect
    · rw [if_pos h2]
      by_cases h3 : e < c.direct
      · rw [if_pos h3]; omega
      · rw [if_neg h3, if_pos (by omega)]
        have := Nat.mul_le_mul_right c.indirEntries (show e - c.direct ≤ e' - c.direct by omega)
        omega
    · rw [if_neg h2]
      by_cases h3 : e < c.direct
      · rw [if_pos h3]; omega
      · rw [if_neg h3]
        by_cases h4 : e < c.direct + c.indirect
        · rw [if_pos h4, hI]
          have := Nat.mul_le_mul_right c.indirEntries (show e - c.direct ≤ c.indirect by omega)
          omega
        · rw [if_neg h4]
          have := Nat.mul_le_mul_right c.dindirData (show e - c.direct - c.indirect ≤ e' - c.direct - c.indirect by omega)
          omega

theorem root_eq (hc : c.Ok) {p : Pos} (hp : PosOk c p) {e : Nat} (h1 : (Pos.ent e).first c ≤ p.first c) (h2 : p.first c < (Pos.ent (e + 1)).first c) : p.root = e := by
  obtain ⟨b1, b2⟩ := firstE_bound hc hp
  rcases Nat.lt_trichotomy p.root e with h | h | h
  · have := firstE_mono hc (show p.root + 1 ≤ e from h); omega
  · exact h
  · have := firstE_mono hc (show e + 1 ≤ p.root from h); omega

end RedFs
