import Verif.Lemmas.Shrink
set_option linter.unusedSimpArgs false
set_option linter.unusedVariables false
namespace RedFs
open M Bitmap Vol

variable {c : Conf} {O : Nat → Prop} {s s' s1 s2 : DS} {V V' V1 V2 : Pos → Nat} {Z Z' Z1 Z2 G G1 G2 : Pos → Prop}

/-- The blocks from `t` up to `u` are gone. -/
structure Cut (c : Conf) (O : Nat → Prop) (s s' : DS) (V V' : Pos → Nat) (t u : Nat) : Prop where
  inv : FInv c O s' V' noZ
  cnt : Cnt c s' V'
  fr : Fr c O s s'
  sub : ∀ p, PosOk c p → V' p ≠ 0 → V p ≠ 0
  gone : ∀ p, PosOk c p → V' p ≠ 0 → p.first c < t ∨ u ≤ p.first c
  leaf : ∀ p, PosOk c p → p.lvl c = 0 → p.first c < t → V' p = V p ∧ (V p ≠ 0 → s'.v.blk (V p) = s.v.blk (V p))
  tot : tot s.v ≤ tot s'.v

namespace Cut
theorem of_sh {t u : Nat} (a : Sh c O s s' V V' noZ G) (h1 : ∀ p, PosOk c p → V' p ≠ 0 → p.first c < t ∨ u ≤ p.first c)
    (h2 : ∀ p, PosOk c p → G p → p.lvl c = 0 → t ≤ p.first c) : Cut c O s s' V V' t u where
  inv := a.inv
  cnt := a.cnt
  fr := a.fr
  sub := a.sub
  gone := h1
  leaf := fun p hp hl hf => a.leaf p hp hl (fun hg => by have := h2 p hp hg hl; omega)
  tot := a.tot

theorem refl (h : FInv c O s V noZ) (hcnt : Cnt c s V) (t : Nat) {u : Nat} (hu : u ≤ t) : Cut c O s s V V t u :=
  of_sh (.refl h hcnt) (fun p _ _ => by omega) (fun _ _ h => h.elim)

theorem trans (hc : c.Ok) {t u w : Nat} (a : Cut c O s s1 V V1 t u) (b : Cut c O s1 s2 V1 V2 u w) (h : t ≤ u) : Cut c O s s2 V V2 t w where
  inv := b.inv
  cnt := b.cnt
  fr := a.fr.trans hc b.fr
  sub := fun p hp hn => a.sub p hp (b.sub p hp hn)
  gone := fun p hp hn => by
    rcases b.gone p hp hn with h1 | h1
    · rcases a.gone p hp (b.sub p hp hn) with h2 | h2
      · exact Or.inl h2
      · omega
    · exact Or.inr h1
  leaf := fun p hp hl hf => by
    obtain ⟨a1, a2⟩ := a.leaf p hp hl hf
    obtain ⟨b1, b2⟩ := b.leaf p hp hl (by omega)
    refine ⟨b1.trans a1, fun hn => ?_⟩
    rw [a1] at b2
    exact (b2 hn).trans (a2 hn)
  tot := Nat.le_trans a.tot b.tot

/-- The part of the tree below entry `e` has been cut. -/
theorem of_root (hc : c.Ok) {t e : Nat} (a : Sh c O s s' V V' noZ G) (h1 : ∀ p, PosOk c p → p.root = e → V' p ≠ 0 → p.first c < t)
    (h2 : ∀ p, PosOk c p → G p → p.lvl c = 0 → t ≤ p.first c) (hge : (Pos.ent e).first c ≤ t) :
    Cut c O s s' V V' t ((Pos.ent (e + 1)).first c) :=
  of_sh a (fun p hp hn => by
    by_cases g1 : p.first c < t
    · exact Or.inl g1
    · by_cases g2 : (Pos.ent (e + 1)).first c ≤ p.first c
      · exact Or.inr g2
      · exact Or.inl (h1 p hp (root_eq hc hp (by omega) (by omega)) hn)) h2
end Cut

theorem root_posOf (hc : c.Ok) {b e : Nat} (hb : b < c.dataBlocks) (h1 : (Pos.ent e).first c ≤ b) (h2 : b < (Pos.ent (e + 1)).first c) :
    (posOf c b).root = e := by
  obtain ⟨p1, p2, p3⟩ := posOf_ok hc hb
  exact root_eq hc p1 (by omega) (by omega)

theorem posOf_bound (hc : c.Ok) {b : Nat} (hb : b < c.dataBlocks) :
    (Pos.ent (posOf c b).root).first c ≤ b ∧ b < (Pos.ent ((posOf c b).root + 1)).first c := by
  obtain ⟨p1, p2, p3⟩ := posOf_ok hc hb
  have := firstE_bound hc p1
  rw [p3] at this; exact this

theorem span_pos (hc : c.Ok) (e : Nat) : 0 < c.span e := by
  have := hc.ie_pos; have := hc.dd_pos
  unfold Conf.span; split
  · omega
  · split <;> omega

/-- Seeking depends on the part of the tree below the entry. -/
theorem SeekPre.congr {ci ci' : Cinode} {b : Nat} (h : SeekPre c ci V b) (he : CoEq ci ci') (hV : ∀ p, p.root = (posOf c b).root → V' p = V p) :
    SeekPre c ci' V' b := by
  have e : ci' = { ci with node := ci'.node } := he
  rw [e]
  intro hi
  obtain ⟨h1, h2⟩ := h hi
  have hr : ∀ p, posOf c b = p → True := fun _ _ => trivial
  refine ⟨fun hl => ?_, fun hl => ?_⟩
  · have := h1 hl
    refine ⟨this.inited, this.logical, ?_, this.pData⟩
    have h3 := this.pos
    generalize posOf c b = p at *
    rcases p with x | ⟨x | ⟨x | ⟨x, y⟩, d'⟩, k'⟩
    · simp only [CohAt] at *; rw [hV (.ent x) rfl]; exact h3
    · simp only [CohAt] at *; rw [hV (.ent x) rfl, hV (.sub (.ent x) k') rfl]; exact h3
    · simp only [CohAt] at *; rw [hV (.ent x) rfl, hV (.sub (.ent x) d') rfl, hV (.sub (.sub (.ent x) d') k') rfl]; exact h3
    · exact h3
  · have h3 := h2 hl
    generalize posOf c b = p at *
    rcases p with x | ⟨x | ⟨x | ⟨x, y⟩, d'⟩, k'⟩
    · trivial
    · simp only [PathPre] at *; rw [hV (.ent x) rfl]; exact h3
    · simp only [PathPre] at *; rw [hV (.ent x) rfl, hV (.sub (.ent x) d') rfl]; exact h3
    · trivial

theorem shrinkDirect_spec (hc : c.Ok) : ∀ (n t : Nat) (s : DS) (V : Pos → Nat), FInv c O s V noZ → Cnt c s V → t + n ≤ c.direct →
    ∃ s' V', shrinkDirect c n t s = (.ok (), s') ∧ CoEq s.ci s'.ci ∧ (∀ p, c.direct ≤ p.root → V' p = V p) ∧ Cut c O s s' V V' t (t + n) := by
  intro n
  induction n with
  | zero =>
    intro t s V h hcnt _
    exact ⟨s, V, rfl, .refl _, fun _ _ => rfl, .refl h hcnt t (by omega)⟩
  | succ n ih =>
    intro t s V h hcnt hle
    have htd : t < c.dataBlocks := by rw [Conf.Ok.dataBlocks_eq]; omega
    have hpos : posOf c t = .ent t := by unfold posOf; rw [if_pos (by omega)]
    have hte : t < c.inodeEntries := by have := hc.ptrs; omega
    have hV : V (.ent t) = s.ci.node.entries t := h.ent t hte (fun h => h)
    unfold shrinkDirect
    simp only [run_bind, run_get]
    obtain ⟨s1, e1, hco1, hen1, _, sh1⟩ := truncData_spec hc h hcnt htd
    rw [hpos, hV] at e1
    rw [hpos] at sh1
    rw [e1]
    have hf : ∀ e, e < c.direct → (Pos.ent e).first c = e := by intro e he; simp only [Pos.first]; rw [if_pos he]
    have hdir : ∀ p, c.direct ≤ p.root → upV V (.ent t) 0 p = V p := by
      intro p hp; apply upV_ne; rintro rfl; simp only [Pos.root] at hp; omega
    have hroot : ∀ p, PosOk c p → p.root = t → p = .ent t := by
      intro p hp hr
      rcases p with x | ⟨x, k⟩
      · rw [show x = t from hr]
      · exfalso
        have h1 := firstE_bound hc hp
        have hr' : x.root = t := hr
        have hlv : 0 < x.lvl c := hp.2.1
        have : ∀ q : Pos, q.root = t → q.lvl c = 0 := by
          intro q hq
          induction q with
          | ent e => simp only [Pos.root] at hq; subst hq; simp only [Pos.lvl, Conf.height]; rw [if_pos (by omega)]
          | sub q k ihq => show q.lvl c - 1 = 0; rw [ihq hq]
        rw [this x hr'] at hlv; omega
    have hstep : ∃ s2, onlyIf (s.ci.node.entries t ≠ 0) (setNode (·.setEntry t 0)) () s1 = (.ok (), s2) ∧ CoEq s.ci s2.ci ∧
        Cut c O s s2 V (upV V (.ent t) 0) t (t + 1) := by
      have hz1 : (fun x => noZ x ∨ (V (.ent t) ≠ 0 ∧ x = .ent t)) = fun x => V (.ent t) ≠ 0 ∧ x = .ent t := by funext x; simp [noZ]
      rw [hz1] at sh1
      have hcut : ∀ s2, Sh c O s s2 V (upV V (.ent t) 0) noZ (fun x => x = .ent t) → Cut c O s s2 V (upV V (.ent t) 0) t (t + 1) := by
        intro s2 sh
        have hu : (Pos.ent (t + 1)).first c = t + 1 := by
          rw [firstE_succ, hf t (by omega)]; unfold Conf.span; rw [if_pos (by omega)]
        rw [← hu]
        refine .of_root hc sh ?_ ?_ (by rw [hf t (by omega)]; omega)
        · intro p hp hr hn; rw [hroot p hp hr] at hn; exact absurd (upV_self _ _ _) hn
        · rintro p hp rfl _; rw [hf t (by omega)]; omega
      by_cases h0 : s.ci.node.entries t = 0
      · rw [onlyIf_neg (by simpa using h0)]
        refine ⟨s1, rfl, hco1, hcut s1 ?_⟩
        have : (fun x => V (.ent t) ≠ 0 ∧ x = .ent t) = noZ := by funext x; simp [noZ, hV, h0]
        rw [this] at sh1; exact sh1
      · rw [onlyIf_pos h0]
        obtain ⟨s2, e2, hco2, sh2⟩ := clearEnt_spec hc sh1.inv sh1.cnt hte (upV_self _ _ _)
        refine ⟨s2, e2, hco1.trans hco2, hcut s2 ?_⟩
        have := sh1.trans hc sh2
        have ez : (fun x => (V (.ent t) ≠ 0 ∧ x = .ent t) ∧ x ≠ .ent t) = noZ := by funext x; simp [noZ]
        rw [ez] at this
        exact this.more (fun p _ h => by rcases h with h | h; exact h; exact h.elim) (fun p _ h => Or.inl (Or.inl h))
    obtain ⟨s2, e2, hco2, cut2⟩ := hstep
    simp only [e2]
    obtain ⟨s3, V3, e3, hco3, hd3, cut3⟩ := ih (t + 1) s2 _ cut2.inv cut2.cnt (by omega)
    refine ⟨s3, V3, e3, hco2.trans hco3, fun p hp => (hd3 p hp).trans (hdir p hp), ?_⟩
    have := cut2.trans hc cut3 (by omega)
    rw [show t + 1 + n = t + (n + 1) by omega] at this; exact this

theorem shrinkIndir_spec (hc : c.Ok) : ∀ (fuel t : Nat) (s : DS) (V : Pos → Nat), FInv c O s V noZ → Cnt c s V →
    c.direct ≤ t → c.direct + c.indirBlocks ≤ t + fuel → (t < c.dataBlocks → SeekPre c s.ci V t) →
    (s.ci.dirty = true ∨ ∃ e, t = (Pos.ent e).first c) →
    (∃ s1 V1, shrinkIndir c fuel t s = (.error .enospc, s1) ∧ ShFail c O s s1 V V1 ∧ freeBlockCount c s.v < 1 ∧ 0 < c.indirect ∧
      (¬ ∃ e, t = (Pos.ent e).first c) ∧ OldAbove c s.v V t) ∨
    ∃ s' V', shrinkIndir c fuel t s = (.ok (max t (c.direct + c.indirBlocks)), s') ∧
      Cut c O s s' V V' t (max t (c.direct + c.indirBlocks)) ∧
      (max t (c.direct + c.indirBlocks) < c.dataBlocks → SeekPre c s'.ci V' (max t (c.direct + c.indirBlocks))) ∧
      (c.direct + c.indirBlocks ≤ t → s' = s ∧ V' = V) := by
  intro fuel
  induction fuel with
  | zero =>
    intro t s V h hcnt h1 h2 h3 h4
    right
    have hm : max t (c.direct + c.indirBlocks) = t := by omega
    rw [hm]
    unfold shrinkIndir
    rw [if_neg (by omega)]
    exact ⟨s, V, rfl, .refl h hcnt t (Nat.le_refl _), h3, fun _ => ⟨rfl, rfl⟩⟩
  | succ fuel ih =>
    intro t s V h hcnt h1 h2 h3 h4
    unfold shrinkIndir
    by_cases hlt : t < c.direct + c.indirBlocks
    · rw [if_pos hlt]
      have htd : t < c.dataBlocks := by rw [Conf.Ok.dataBlocks_eq]; omega
      have hpos0 : ∃ e k, posOf c t = .sub (.ent e) k := by
        unfold posOf; rw [if_neg (by omega), if_pos hlt]; exact ⟨_, _, rfl⟩
      obtain ⟨e, k, hpos⟩ := hpos0
      obtain ⟨p1, p2, p3⟩ := posOf_ok hc htd
      have hcd := coord_posOf hc htd
      rw [hpos] at hcd p1 p2 p3
      cases hcd
      rename_i c1 c2 c3 c4
      have hl1 : (Pos.ent e).lvl c = 1 := by simp only [Pos.lvl, Conf.height]; rw [if_neg (by omega), if_pos (by omega)]
      have hfk : ∀ k', (Pos.sub (.ent e) k').first c = (Pos.ent e).first c + k' := by
        intro k'
        show (Pos.ent e).first c + k' * (if (Pos.ent e).lvl c = 1 then 1 else c.indirEntries) = _
        rw [if_pos hl1]; omega
      have htk : t = (Pos.ent e).first c + k := by rw [← p3, hfk]
      have hroot : (posOf c t).root = e := by rw [hpos]; rfl
      have hk0 : (∃ e', t = (Pos.ent e').first c) → k = 0 := by
        rintro ⟨e', he'⟩
        have := root_posOf hc htd (e := e') (by omega) (by have := firstE_succ c e'; have := span_pos hc e'; omega)
        rw [hroot] at this; subst this; omega
      simp only [run_bind]
      obtain ⟨ci1, e1, hco, hsame, _⟩ := seekData_spec hc h htd (NoZPath.noZ _) (h3 htd)
      rw [e1]
      simp only
      have sh0 := Sh.of_ci hsame h hcnt
      rcases truncIndir_spec hc sh0.inv sh0.cnt htd hpos hco (fun _ h => h) (fun h => h)
          (fun hk => ⟨rfl, by
            rcases h4 with h4 | h4
            · exact hsame.dirty.trans h4
            · have := hk0 h4; omega⟩) with
        ⟨g1, g2, g3, g4, k', g5, g6⟩ | ⟨freed, s1, V1, g1, g2, g3, g4, g5, g6⟩
      · left
        rw [g2]
        rw [hpos] at g3
        have hb0 : brCost c { s with ci := ci1 } V 1 (.sub (.ent e) k) = costAt c { s with ci := ci1 } V (.ent e) := by
          simp [brCost, anc, ancI, ancX, costOf]
        rw [hb0] at g3
        have hcl := costAt_le (c := c) { s with ci := ci1 } V (.ent e)
        have g3' : freeBlockCount c s.v < costAt c { s with ci := ci1 } V (.ent e) := g3
        refine ⟨_, V, rfl, .of_ro h hcnt ⟨rfl, hsame, hco.seekAll hc htd⟩, ?_, by omega, fun hx => by have := hk0 hx; omega, ?_⟩
        · omega
        · refine ⟨htd, .ent e, p1.1, g4, fun hN => ?_, by omega, Or.inl ⟨k, hpos⟩⟩
          have : costAt c { s with ci := ci1 } V (.ent e) = 0 := by unfold costAt; rw [if_pos ⟨g4, hN⟩]
          omega
      · rw [g1]
        simp only [run_get]
        have hat := g3.atEnt htd hpos
        have hie1 := g3.indirEntry
        have hroots : ∀ p, PosOk c p → p.root = e → p = .ent e ∨ ∃ k', p = .sub (.ent e) k' := by
          intro p hp hr
          rcases p with x | ⟨x | ⟨x, y⟩, k'⟩
          · left; rw [show x = e from hr]
          · right; rw [show x = e from hr]; exact ⟨k', rfl⟩
          · exfalso
            have hx : ∀ q : Pos, q.root = e → q.lvl c ≤ 1 := by
              intro q hq
              induction q with
              | ent y => simp only [Pos.root] at hq; subst hq; omega
              | sub q k ihq => have := ihq hq; show q.lvl c - 1 ≤ 1; omega
            have h1 : 0 < x.lvl c - 1 := hp.2.1
            have := hx x hr; omega
        have hstep : ∃ s2, onlyIf (freed = true) (setNode (·.setEntry s1.ci.inodeEntry 0)) () s1 = (.ok (), s2) ∧ AtEnt c s2.ci e ∧ s2.ci.dirty = s.ci.dirty ∧
            Sh c O s s2 V V1 noZ (cutI (.ent e) k freed) := by
          have sh1 := (sh0.trans hc g2).more (G := cutI (.ent e) k freed) (fun p _ h => by rcases h with h | h; exact h.elim; exact h) (fun p _ h => Or.inl (Or.inr h))
          have hen : s1.ci.inodeEntry = e := g3.up
          cases freed with
          | false =>
            rw [onlyIf_neg (by simp)]
            refine ⟨s1, rfl, hat, sh1.fr.dirty, ?_⟩
            have ez : (fun p => noZ p ∨ (false = true ∧ p = Pos.ent e)) = noZ := by funext p; simp
            rw [ez] at sh1; exact sh1
          | true =>
            rw [onlyIf_pos rfl, hen]
            have hz := sh1.gone (.ent e) p1.1 (Or.inr ⟨rfl, rfl⟩)
            obtain ⟨s2, e2, hco2, sh2⟩ := clearEnt_spec hc sh1.inv sh1.cnt p1.1 hz
            refine ⟨s2, e2, ?_, (sh1.fr.trans hc sh2.fr).dirty, ?_⟩
            · have : s2.ci = { s1.ci with node := s2.ci.node } := hco2
              rw [this]; exact hat
            · have := sh1.trans hc sh2
              have ez : (fun p => (noZ p ∨ (true = true ∧ p = Pos.ent e)) ∧ p ≠ .ent e) = noZ := by funext p; simp [noZ]
              rw [ez] at this
              exact this.more (fun p _ h => by rcases h with h | h; exact h; exact h.elim) (fun p _ h => Or.inl (Or.inl h))
        obtain ⟨s2, e2, hat2, hd2, sh2⟩ := hstep
        have hcut : Cut c O s s2 V V1 t ((Pos.ent (e + 1)).first c) := by
          refine .of_root hc sh2 ?_ ?_ (by omega)
          · intro p hp hr hn
            rcases hroots p hp hr with rfl | ⟨k', rfl⟩
            · by_cases hk : k = 0
              · exact absurd (g4 hk) hn
              · omega
            · rw [hfk]
              apply Decidable.byContradiction; intro hge
              exact hn (sh2.gone _ hp (Or.inl ⟨k', by omega, rfl⟩))
          · rintro p hp (⟨k', hk, rfl⟩ | ⟨_, rfl⟩) hl
            · rw [hfk]; omega
            · omega
        have hspan : c.span e = c.indirEntries := by unfold Conf.span; rw [if_neg (by omega), if_pos (by omega)]
        have hnext : t + (c.indirEntries - s1.ci.indirEntry.getD 0) = (Pos.ent (e + 1)).first c := by
          rw [hie1, firstE_succ, hspan, Option.getD_some]; omega
        rw [e2]
        simp only [hnext]
        have hu : (Pos.ent (e + 1)).first c = t + (c.indirEntries - k) := by rw [firstE_succ, hspan]; omega
        have hIB : c.indirBlocks = c.indirect * c.indirEntries := rfl
        have hmaxle : (Pos.ent (e + 1)).first c ≤ c.direct + c.indirBlocks := by
          have := firstE_mono hc (show e + 1 ≤ c.direct + c.indirect by omega)
          have h9 : (Pos.ent (c.direct + c.indirect)).first c = c.direct + c.indirBlocks := by
            simp only [Pos.first]; rw [if_neg (by omega), if_neg (by omega), show c.direct + c.indirect - c.direct - c.indirect = 0 by omega]; omega
          omega
        rcases ih ((Pos.ent (e + 1)).first c) s2 V1 hcut.inv hcut.cnt (by omega) (by omega)
          (fun hx => hat2.seekPre (by
            rw [root_posOf hc hx (e := e + 1) (Nat.le_refl _) (by have := firstE_succ c (e + 1); have := span_pos hc (e + 1); omega)]
            omega)) (Or.inr ⟨_, rfl⟩) with
          ⟨_, _, _, _, _, _, hx, _⟩ | ⟨s3, V3, e3, cut3, sp3, _⟩
        · exact absurd ⟨_, rfl⟩ hx
        · right
          have m1 : max ((Pos.ent (e + 1)).first c) (c.direct + c.indirBlocks) = c.direct + c.indirBlocks := by omega
          have m2 : max t (c.direct + c.indirBlocks) = c.direct + c.indirBlocks := by omega
          rw [m1] at e3 cut3 sp3
          rw [m2]
          exact ⟨s3, V3, e3, hcut.trans hc cut3 (by omega), sp3, fun hx => by omega⟩
    · right
      rw [if_neg hlt]
      have hm : max t (c.direct + c.indirBlocks) = t := by omega
      rw [hm]
      exact ⟨s, V, rfl, .refl h hcnt t (Nat.le_refl _), h3, fun _ => ⟨rfl, rfl⟩⟩

theorem shrinkDindir_spec (hc : c.Ok) : ∀ (fuel t : Nat) (s : DS) (V : Pos → Nat), FInv c O s V noZ → Cnt c s V →
    c.direct + c.indirBlocks ≤ t → c.dataBlocks ≤ t + fuel → (t < c.dataBlocks → SeekPre c s.ci V t) →
    (s.ci.dirty = true ∨ ∃ e, t = (Pos.ent e).first c) →
    (∃ s1 V1, shrinkDindir c fuel t s = (.error .enospc, s1) ∧ ShFail c O s s1 V V1 ∧ freeBlockCount c s.v < 2 ∧
      (¬ ∃ e, t = (Pos.ent e).first c) ∧ OldAbove c s.v V t) ∨
    ∃ s' V', shrinkDindir c fuel t s = (.ok (), s') ∧ Cut c O s s' V V' t c.dataBlocks := by
  intro fuel
  induction fuel with
  | zero =>
    intro t s V h hcnt h1 h2 h3 h4
    right
    unfold shrinkDindir
    rw [if_neg (by omega)]
    exact ⟨s, V, rfl, .refl h hcnt t (by omega)⟩
  | succ fuel ih =>
    intro t s V h hcnt h1 h2 h3 h4
    unfold shrinkDindir
    by_cases htd : t < c.dataBlocks
    · rw [if_pos htd]
      have hpos0 : ∃ e d k, posOf c t = .sub (.sub (.ent e) d) k := by
        unfold posOf; rw [if_neg (by omega), if_neg (by omega)]; exact ⟨_, _, _, rfl⟩
      obtain ⟨e, d, k, hpos⟩ := hpos0
      obtain ⟨p1, p2, p3⟩ := posOf_ok hc htd
      have hcd := coord_posOf hc htd
      rw [hpos] at hcd p1 p2 p3
      cases hcd
      rename_i he1 he2 hdd hkk hb
      have hF : (Pos.ent e).first c = c.direct + c.indirBlocks + (e - c.direct - c.indirect) * c.dindirData := by
        simp only [Pos.first]; rw [if_neg (by omega), if_neg (by omega)]
      have htF : t = (Pos.ent e).first c + d * c.indirEntries + k := by rw [hF]; exact hb
      clear hb
      have hroot : (posOf c t).root = e := by rw [hpos]; rfl
      have hie := hc.ie_pos
      have hspan : c.span e = c.dindirData := by unfold Conf.span; rw [if_neg (by omega), if_neg (by omega)]
      have hk0 : (∃ e', t = (Pos.ent e').first c) → d = 0 ∧ k = 0 := by
        rintro ⟨e', he'⟩
        have := root_posOf hc htd (e := e') (by omega) (by have := firstE_succ c e'; have := span_pos hc e'; omega)
        rw [hroot] at this; subst this
        have hz : d * c.indirEntries = 0 := by omega
        rw [Nat.mul_eq_zero] at hz
        exact ⟨by omega, by omega⟩
      simp only [run_bind]
      obtain ⟨ci1, e1, hco, hsame, _⟩ := seekData_spec hc h htd (NoZPath.noZ _) (h3 htd)
      rw [e1]
      simp only [run_get]
      have sh0 := Sh.of_ci hsame h hcnt
      have hcp := hco.pos
      rw [hpos] at hcp
      obtain ⟨k1, k2, k3, _⟩ := hcp
      rcases truncDindir_spec hc sh0.inv sh0.cnt htd hpos hco
          (fun hk => by
            rcases h4 with h4 | h4
            · exact hsame.dirty.trans h4
            · have := hk0 h4; omega) with
        ⟨s1, V1, g1, g2, g3, g3', gO⟩ | ⟨freed, s1, V1, G1, g1, g2, g3, g4, g5, g6⟩
      · left
        rw [g1]
        refine ⟨s1, V1, rfl, ⟨?_, g2.seek, g2.tot⟩, g3, (fun hbd => by have := hk0 hbd; omega), gO⟩
        exact (sh0.trans hc g2.sh).more (fun p _ h => by rcases h with h | h <;> exact h) (fun _ _ h => h.elim)
      · rw [g1]
        simp only
        have sh1 := sh0.trans hc g2
        have hstep : ∃ s2, onlyIf (freed = true) (setNode (·.setEntry ci1.inodeEntry 0)) () s1 = (.ok (), s2) ∧ AtEnt c s2.ci e ∧ s2.ci.dirty = s.ci.dirty ∧
            Sh c O s s2 V V1 noZ G1 := by
          have sh1' := sh1.more (G := G1) (fun p _ h => by rcases h with h | h; exact h.elim; exact h) (fun p _ h => Or.inl (Or.inr h))
          rw [k1]
          cases freed with
          | false =>
            rw [onlyIf_neg (by simp)]
            refine ⟨s1, rfl, g6, sh1.fr.dirty, ?_⟩
            have ez : (fun p => (false = true ∧ p = Pos.ent e)) = noZ := by funext p; simp [noZ]
            rw [ez] at sh1'; exact sh1'
          | true =>
            rw [onlyIf_pos rfl]
            obtain ⟨s2, e2, hco2, sh2⟩ := clearEnt_spec hc sh1'.inv sh1'.cnt he2 (g5 rfl)
            refine ⟨s2, e2, ?_, (sh1.fr.trans hc sh2.fr).dirty, ?_⟩
            · have : s2.ci = { s1.ci with node := s2.ci.node } := hco2
              rw [this]; exact g6
            · have := sh1'.trans hc sh2
              have ez : (fun p => (true = true ∧ p = Pos.ent e) ∧ p ≠ .ent e) = noZ := by funext p; simp [noZ]
              rw [ez] at this
              exact this.more (fun p _ h => by rcases h with h | h; exact h; exact h.elim) (fun p _ h => Or.inl (Or.inl h))
        obtain ⟨s2, e2, hat2, hd2, sh2⟩ := hstep
        have hcut : Cut c O s s2 V V1 t ((Pos.ent (e + 1)).first c) :=
          .of_root hc sh2 g3 (fun p hp hg hl => (g4 p hp hg hl).1) (by omega)
        have hnext : t + min (c.dindirData - ci1.dindirEntry.getD 0 * c.indirEntries - ci1.indirEntry.getD 0) (c.dataBlocks - t) =
            min ((Pos.ent (e + 1)).first c) c.dataBlocks := by
          rw [k2, k3, firstE_succ, hspan, Option.getD_some, Option.getD_some]
          have := (posOf_bound hc htd).2
          rw [hroot, firstE_succ, hspan] at this
          omega
        rw [e2]
        simp only [hnext]
        have hgt := (posOf_bound hc htd).2
        rw [hroot] at hgt
        by_cases hend : (Pos.ent (e + 1)).first c < c.dataBlocks
        · rw [Nat.min_eq_left (by omega)]
          rcases ih ((Pos.ent (e + 1)).first c) s2 V1 hcut.inv hcut.cnt (by omega) (by omega)
            (fun hx => hat2.seekPre (by
              rw [root_posOf hc hx (e := e + 1) (Nat.le_refl _) (by have := firstE_succ c (e + 1); have := span_pos hc (e + 1); omega)]
              omega)) (Or.inr ⟨_, rfl⟩) with
            ⟨_, _, _, _, _, hx, _⟩ | ⟨s3, V3, e3, cut3⟩
          · exact absurd ⟨_, rfl⟩ hx
          · right; exact ⟨s3, V3, e3, hcut.trans hc cut3 (by omega)⟩
        · rw [Nat.min_eq_right (by omega)]
          right
          refine ⟨s2, V1, ?_, ?_⟩
          · unfold shrinkDindir; cases fuel <;> simp <;> rfl
          · refine { hcut with gone := fun p hp hn => ?_ }
            rcases hcut.gone p hp hn with g | g
            · exact Or.inl g
            · exact Or.inr (by omega)
    · right
      rw [if_neg htd]
      exact ⟨s, V, rfl, .refl h hcnt t (by omega)⟩

end RedFs
