import Verif.Lemmas.Tree
set_option linter.unusedSimpArgs false
set_option linter.unusedVariables false
namespace RedFs
open M Bitmap Vol

variable {c : Conf}

/-- `none` for block 0. -/
def nz (q : Nat) : Option Nat := if q = 0 then none else some q

/-- The coordinates point to position `p` of the tree. -/
def CohAt (ci : Cinode) (V : Pos → Nat) : Pos → Prop
  | .ent e => ci.inodeEntry = e ∧ ci.dindirEntry = none ∧ ci.indirEntry = none ∧ ci.pDindir = none ∧ ci.pIndir = none ∧
      ci.dataBlk = V (.ent e)
  | .sub (.ent e) k => ci.inodeEntry = e ∧ ci.dindirEntry = none ∧ ci.indirEntry = some k ∧ ci.pDindir = none ∧
      ci.indirBlk = V (.ent e) ∧ ci.pIndir = nz ci.indirBlk ∧ ci.dataBlk = V (.sub (.ent e) k)
  | .sub (.sub (.ent e) d) k => ci.inodeEntry = e ∧ ci.dindirEntry = some d ∧ ci.indirEntry = some k ∧
      ci.dindirBlk = V (.ent e) ∧ ci.pDindir = nz ci.dindirBlk ∧
      ci.indirBlk = V (.sub (.ent e) d) ∧ ci.pIndir = nz ci.indirBlk ∧ ci.dataBlk = V (.sub (.sub (.ent e) d) k)
  | _ => False

/-- The coordinates are those of logical block `b`. -/
structure Coh (c : Conf) (ci : Cinode) (V : Pos → Nat) (b : Nat) : Prop where
  inited : ci.inited = true
  logical : ci.logical = b
  pos : CohAt ci V (posOf c b)
  pData : ∀ x, ci.pData = some x → x = ci.dataBlk ∧ x ≠ 0

/-- What a seek relies on when the coordinates are those of another block. -/
def PathPre (ci : Cinode) (V : Pos → Nat) : Pos → Prop
  | .sub (.ent e) _ => ci.inodeEntry = e → ci.indirBlk = V (.ent e) ∧ ∀ x, ci.pIndir = some x → x = V (.ent e) ∧ x ≠ 0
  | .sub (.sub (.ent e) d) _ => ci.inodeEntry = e → ci.dindirBlk = V (.ent e) ∧
      (∀ x, ci.pDindir = some x → x = V (.ent e) ∧ x ≠ 0) ∧
      (∀ x, ci.pIndir = some x → ci.dindirEntry = some d → x = V (.sub (.ent e) d) ∧ x ≠ 0)
  | _ => True

/-- The coordinates may be used to seek to `b`. -/
def SeekPre (c : Conf) (ci : Cinode) (V : Pos → Nat) (b : Nat) : Prop :=
  ci.inited = true → (ci.logical = b → Coh c ci V b) ∧ (ci.logical ≠ b → PathPre ci V (posOf c b))

/-- Coordinates of a position, as `SeekCoord` sets them. -/
def seekPos (ci : Cinode) (b : Nat) : Pos → Cinode
  | .ent e => { ci with pData := none, pIndir := none, pDindir := none, logical := b, inodeEntry := e,
                        dataBlk := ci.node.entries e, dindirEntry := none, indirEntry := none, inited := true }
  | .sub (.ent e) k =>
    let ci1 := { ci with pData := none, logical := b, pDindir := none }
    let ci2 := if ci.inodeEntry ≠ e ∨ ci.inited = false then
        { ci1 with pIndir := none, inodeEntry := e, indirBlk := ci.node.entries e }
      else ci1
    { ci2 with dindirEntry := none, indirEntry := some k, inited := true }
  | .sub (.sub (.ent e) d) k =>
    let ci1 := { ci with pData := none, logical := b }
    let ci2 := if ci.inodeEntry ≠ e ∨ ci.inited = false then
        { ci1 with pIndir := none, pDindir := none, inodeEntry := e, dindirBlk := ci.node.entries e }
      else if ci.dindirEntry ≠ some d then { ci1 with pIndir := none }
      else ci1
    { ci2 with dindirEntry := some d, indirEntry := some k, inited := true }
  | _ => ci

theorem seekCi_pos (ci : Cinode) (b : Nat) : seekCi c ci b = seekPos ci b (posOf c b) := by
  unfold seekCi posOf
  rw [Nat.add_comm c.indirBlocks]
  split
  · rfl
  split
  · dsimp only
    rw [Nat.add_comm ((b - c.direct) / c.indirEntries)]; rfl
  · have e : b - c.direct - c.indirBlocks = b - (c.direct + c.indirBlocks) := by omega
    simp only [e]
    rw [show (b - (c.direct + c.indirBlocks)) / c.dindirData + c.direct + c.indirect
      = c.direct + c.indirect + (b - (c.direct + c.indirBlocks)) / c.dindirData by
        rw [Nat.add_assoc, Nat.add_comm]]
    rfl

/-- All coordinates. -/
def Cinode.co (ci : Cinode) (b e : Nat) (de ie pd pi : Option Nat) (q2 q1 q0 : Nat) : Cinode :=
  { ci with pData := none, logical := b, inodeEntry := e, dindirEntry := de, indirEntry := ie, pDindir := pd, pIndir := pi,
            dindirBlk := q2, indirBlk := q1, dataBlk := q0, inited := true }

/-- The nodes above position `p` are intact. -/
def NoZPath (Z : Pos → Prop) : Pos → Prop
  | .ent e => ¬ Z (.ent e)
  | .sub p k => ¬ Z (.sub p k) ∧ NoZPath Z p

theorem NoZPath.noZ (p : Pos) : NoZPath noZ p := by
  induction p with
  | ent e => exact fun h => h
  | sub p k ih => exact ⟨fun h => h, ih⟩

variable {O : Nat → Prop} {s : DS} {V : Pos → Nat} {Z : Pos → Prop}

/-- The state after `SeekCoord` and the reads, for coordinates which are not those of `b`. -/
theorem seek_body (hc : c.Ok) (h : FInv c O s V Z) {b : Nat} {p : Pos} (hp : Coord c b p) (hok : PosOk c p) (hz : NoZPath Z p)
    (hpre : s.ci.inited = true → PathPre s.ci V p) :
    ∃ ci', (do seekDindir; seekIndir) { s with ci := seekPos s.ci b p } = (.ok (), { s with ci := ci' }) ∧
      ci'.inited = true ∧ ci'.logical = b ∧ CohAt ci' V p ∧ ci'.pData = none ∧ CiSame s.ci ci' := by
  cases hp with
  | direct hb =>
    refine ⟨seekPos s.ci b (.ent b), ?_, rfl, rfl, ⟨rfl, rfl, rfl, rfl, rfl, ?_⟩, rfl, ⟨rfl, rfl, rfl, rfl, rfl, rfl⟩⟩
    · simp [seekDindir, seekIndir, seekPos]
    · exact (h.ent b hok hz).symm
  | indir e k h1 h2 h3 hb =>
    have he : V (.ent e) = s.ci.node.entries e := h.ent e hok.1 hz.2
    have hkind : V (.ent e) ≠ 0 → NKind.indir.valid (s.v.blk (V (.ent e))) = true := fun hn => by
      have := h.kind (.ent e) hok.1 hn
      apply this.1
      have hl := hok.2.1
      simp only [Pos.lvl] at hl ⊢
      unfold Conf.height at hl ⊢
      rw [if_neg (by omega), if_pos h2]
    have hdata : V (.sub (.ent e) k) = if V (.ent e) = 0 then 0 else (s.v.blk (V (.ent e))).ptrs k :=
      h.sub (.ent e) k hok hz.1
    -- the cached part
    have hcache : ∃ pi, seekPos s.ci b (.sub (.ent e) k) =
        { s.ci with pData := none, logical := b, pDindir := none, pIndir := pi, inodeEntry := e, indirBlk := V (.ent e),
                    dindirEntry := none, indirEntry := some k, inited := true } ∧
        (pi = none ∨ pi = some (V (.ent e)) ∧ V (.ent e) ≠ 0) := by
      simp only [seekPos]
      by_cases hcnd : s.ci.inodeEntry ≠ e ∨ s.ci.inited = false
      · exact ⟨none, by simp only [if_pos hcnd, he], Or.inl rfl⟩
      · rw [not_or, Decidable.not_not, Bool.not_eq_false] at hcnd
        obtain ⟨g1, g2⟩ := hpre hcnd.2 hcnd.1
        refine ⟨s.ci.pIndir, ?_, ?_⟩
        · rw [if_neg (by simp [hcnd.1, hcnd.2]), ← g1, ← hcnd.1]
        · cases hpi : s.ci.pIndir with
          | none => exact Or.inl rfl
          | some x => obtain ⟨g3, g4⟩ := g2 x hpi; subst g3; exact Or.inr ⟨rfl, g4⟩
    obtain ⟨pi, e1, hpi⟩ := hcache
    rw [e1]
    refine ⟨{ s.ci with pData := none, logical := b, pDindir := none, pIndir := nz (V (.ent e)), inodeEntry := e,
                        indirBlk := V (.ent e), dindirEntry := none, indirEntry := some k, inited := true,
                        dataBlk := V (.sub (.ent e) k) }, ?_, rfl, rfl, ⟨rfl, rfl, rfl, rfl, rfl, rfl, rfl⟩, rfl,
            ⟨rfl, rfl, rfl, rfl, rfl, rfl⟩⟩
    unfold seekDindir seekIndir
    simp only [run_bind, run_get, run_pure]
    by_cases h0 : V (.ent e) = 0
    · have hpn : pi = none := by rcases hpi with h | ⟨_, h⟩; exact h; exact absurd h0 h
      simp only [h0, if_true] at hdata
      simp [h0, hpn, setCi, nz, hdata]
    · simp only [h0, if_false] at hdata
      rcases hpi with rfl | ⟨rfl, _⟩
      · simp [h0, setCi, nz, hdata, liftV, getBuf, hkind h0]
      · simp [h0, setCi, nz, hdata]
  | dindir e d k h1 h2 h3 h4 hb =>
    have hoks : PosOk c (.sub (.ent e) d) := hok.1
    have hoke : PosOk c (.ent e) := hok.1.1
    have hh : c.height e = 2 := by unfold Conf.height; rw [if_neg (by omega), if_neg (by omega)]
    have he : V (.ent e) = s.ci.node.entries e := h.ent e hoke hz.2.2
    have hkind2 : V (.ent e) ≠ 0 → NKind.dindir.valid (s.v.blk (V (.ent e))) = true := fun hn =>
      (h.kind (.ent e) hoke hn).2 hh
    have hkind1 : V (.sub (.ent e) d) ≠ 0 → NKind.indir.valid (s.v.blk (V (.sub (.ent e) d))) = true := fun hn =>
      (h.kind (.sub (.ent e) d) hoks hn).1 (by simp [Pos.lvl, hh])
    have hind : V (.sub (.ent e) d) = if V (.ent e) = 0 then 0 else (s.v.blk (V (.ent e))).ptrs d :=
      h.sub (.ent e) d hoks hz.2.1
    have hdata : V (.sub (.sub (.ent e) d) k) = if V (.sub (.ent e) d) = 0 then 0 else (s.v.blk (V (.sub (.ent e) d))).ptrs k :=
      h.sub (.sub (.ent e) d) k hok hz.1
    have hcache : ∃ pd pi, seekPos s.ci b (.sub (.sub (.ent e) d) k) =
        { s.ci with pData := none, logical := b, pDindir := pd, pIndir := pi, inodeEntry := e, dindirBlk := V (.ent e),
                    dindirEntry := some d, indirEntry := some k, inited := true } ∧
        (pd = none ∨ pd = some (V (.ent e)) ∧ V (.ent e) ≠ 0) ∧
        (pi = none ∨ pi = some (V (.sub (.ent e) d)) ∧ V (.sub (.ent e) d) ≠ 0) := by
      simp only [seekPos]
      by_cases hcnd : s.ci.inodeEntry ≠ e ∨ s.ci.inited = false
      · exact ⟨none, none, by simp only [if_pos hcnd, he], Or.inl rfl, Or.inl rfl⟩
      · have hcnd' := hcnd
        rw [not_or, Decidable.not_not, Bool.not_eq_false] at hcnd'
        obtain ⟨g1, g2, g3⟩ := hpre hcnd'.2 hcnd'.1
        have hpd : s.ci.pDindir = none ∨ s.ci.pDindir = some (V (.ent e)) ∧ V (.ent e) ≠ 0 := by
          cases hpd : s.ci.pDindir with
          | none => exact Or.inl rfl
          | some x => obtain ⟨g4, g5⟩ := g2 x hpd; subst g4; exact Or.inr ⟨rfl, g5⟩
        by_cases hde : s.ci.dindirEntry = some d
        · refine ⟨s.ci.pDindir, s.ci.pIndir, ?_, hpd, ?_⟩
          · rw [if_neg hcnd, if_neg (by simp [hde]), ← g1, ← hcnd'.1]
          · cases hpi : s.ci.pIndir with
            | none => exact Or.inl rfl
            | some x => obtain ⟨g4, g5⟩ := g3 x hpi hde; subst g4; exact Or.inr ⟨rfl, g5⟩
        · refine ⟨s.ci.pDindir, none, ?_, hpd, Or.inl rfl⟩
          rw [if_neg hcnd, if_pos hde, ← g1, ← hcnd'.1]
    obtain ⟨pd, pi, e1, hpd, hpi⟩ := hcache
    rw [e1]
    refine ⟨{ s.ci with pData := none, logical := b, pDindir := nz (V (.ent e)), pIndir := nz (V (.sub (.ent e) d)), inodeEntry := e,
                        dindirBlk := V (.ent e), indirBlk := V (.sub (.ent e) d),
                        dindirEntry := some d, indirEntry := some k, inited := true,
                        dataBlk := V (.sub (.sub (.ent e) d) k) }, ?_, rfl, rfl, ⟨rfl, rfl, rfl, rfl, rfl, rfl, rfl, rfl⟩, rfl,
            ⟨rfl, rfl, rfl, rfl, rfl, rfl⟩⟩
    have hI : ∀ pd', seekIndir ⟨s.ci.co b e (some d) (some k) pd' pi (V (.ent e)) (V (.sub (.ent e) d)) s.ci.dataBlk, s.v⟩ =
        (.ok (), ⟨s.ci.co b e (some d) (some k) pd' (nz (V (.sub (.ent e) d))) (V (.ent e)) (V (.sub (.ent e) d))
          (V (.sub (.sub (.ent e) d) k)), s.v⟩) := by
      intro pd'
      unfold seekIndir
      simp only [run_bind, run_get]
      by_cases h0 : V (.sub (.ent e) d) = 0
      · have hpn : pi = none := by rcases hpi with h | ⟨_, h⟩; exact h; exact absurd h0 h
        simp only [h0, if_true] at hdata
        simp [h0, hpn, setCi, Cinode.co, nz, hdata]
      · simp only [h0, if_false] at hdata
        rcases hpi with rfl | ⟨rfl, _⟩
        · simp [h0, setCi, Cinode.co, nz, hdata, liftV, getBuf, hkind1 h0]
        · simp [h0, setCi, Cinode.co, nz, hdata]
    have hD : seekDindir ⟨s.ci.co b e (some d) (some k) pd pi (V (.ent e)) s.ci.indirBlk s.ci.dataBlk, s.v⟩ =
        (.ok (), ⟨s.ci.co b e (some d) (some k) (nz (V (.ent e))) pi (V (.ent e)) (V (.sub (.ent e) d)) s.ci.dataBlk, s.v⟩) := by
      unfold seekDindir
      simp only [run_bind, run_get]
      by_cases h0 : V (.ent e) = 0
      · have hpn : pd = none := by rcases hpd with h | ⟨_, h⟩; exact h; exact absurd h0 h
        simp only [h0, if_true] at hind
        simp [h0, hpn, setCi, Cinode.co, nz, hind]
      · simp only [h0, if_false] at hind
        rcases hpd with rfl | ⟨rfl, _⟩
        · simp [h0, setCi, Cinode.co, nz, hind, liftV, getBuf, hkind2 h0]
        · simp [h0, setCi, Cinode.co, nz, hind]
    have := hI (nz (V (.ent e)))
    show (do seekDindir; seekIndir) ⟨s.ci.co b e (some d) (some k) pd pi (V (.ent e)) s.ci.indirBlk s.ci.dataBlk, s.v⟩ = _
    simp only [run_bind, hD, hI]
    rfl

theorem seekIndir_again {k : Nat} (h1 : s.ci.indirEntry = some k) (h2 : s.ci.pIndir = nz s.ci.indirBlk)
    (h3 : s.ci.dataBlk = if s.ci.indirBlk = 0 then 0 else (s.v.blk s.ci.indirBlk).ptrs k) : seekIndir s = (.ok (), s) := by
  obtain ⟨⟨ino, dir, br, dy, ini, nbf, nd, pD, pI, pDa, lg, q2, q1, q0, ie, de, ie2⟩, v⟩ := s
  simp only at h1 h2 h3
  subst h1 h2 h3
  unfold seekIndir
  by_cases h0 : q1 = 0 <;> simp [h0, nz, setCi]

theorem seekDindir_again {d : Nat} (h1 : s.ci.dindirEntry = some d) (h2 : s.ci.pDindir = nz s.ci.dindirBlk)
    (h3 : s.ci.indirBlk = if s.ci.dindirBlk = 0 then 0 else (s.v.blk s.ci.dindirBlk).ptrs d) : seekDindir s = (.ok (), s) := by
  obtain ⟨⟨ino, dir, br, dy, ini, nbf, nd, pD, pI, pDa, lg, q2, q1, q0, ie, de, ie2⟩, v⟩ := s
  simp only at h1 h2 h3
  subst h1 h2 h3
  unfold seekDindir
  by_cases h0 : q2 = 0 <;> simp [h0, nz, setCi]

/-- Seeking again does nothing. -/
theorem seek_again (h : FInv c O s V Z) {b : Nat} {p : Pos} (hp : Coord c b p) (hok : PosOk c p) (hz : NoZPath Z p)
    (hco : CohAt s.ci V p) : (do seekDindir; seekIndir) s = (.ok (), s) := by
  cases hp with
  | direct hb =>
    obtain ⟨h1, h2, h3, h4, h5, h6⟩ := hco
    simp [seekDindir, seekIndir, h2, h3]
  | indir e k g1 g2 g3 hb =>
    obtain ⟨h1, h2, h3, h4, h5, h6, h7⟩ := hco
    have hdata : V (.sub (.ent e) k) = if V (.ent e) = 0 then 0 else (s.v.blk (V (.ent e))).ptrs k :=
      h.sub (.ent e) k hok hz.1
    rw [← h5, ← h7] at hdata
    have hD : seekDindir s = (.ok (), s) := by simp [seekDindir, h2]
    simp only [run_bind, hD, seekIndir_again h3 h6 hdata]
  | dindir e d k g1 g2 g3 g4 hb =>
    obtain ⟨h1, h2, h3, h4, h5, h6, h7, h8⟩ := hco
    have hind : V (.sub (.ent e) d) = if V (.ent e) = 0 then 0 else (s.v.blk (V (.ent e))).ptrs d :=
      h.sub (.ent e) d hok.1 hz.2.1
    have hdata : V (.sub (.sub (.ent e) d) k) = if V (.sub (.ent e) d) = 0 then 0 else (s.v.blk (V (.sub (.ent e) d))).ptrs k :=
      h.sub (.sub (.ent e) d) k hok hz.1
    rw [← h4, ← h6] at hind
    rw [← h6, ← h8] at hdata
    simp only [run_bind, seekDindir_again h2 h5 hind, seekIndir_again h3 h7 hdata]

theorem Coh.dataBlk {ci : Cinode} {b : Nat} (hc : c.Ok) (hb : b < c.dataBlocks) (h : Coh c ci V b) : ci.dataBlk = V (posOf c b) := by
  have h1 := coord_posOf hc hb
  have h2 := h.pos
  generalize posOf c b = p at *
  cases h1 with
  | direct => exact h2.2.2.2.2.2
  | indir => exact h2.2.2.2.2.2.2
  | dindir => exact h2.2.2.2.2.2.2.2

/-- `SeekInode` followed by the usual test. -/
theorem seekData_spec (hc : c.Ok) (h : FInv c O s V Z) {b : Nat} (hb : b < c.dataBlocks) (hz : NoZPath Z (posOf c b))
    (hpre : SeekPre c s.ci V b) :
    ∃ ci', seekData c b s = (.ok (decide (V (posOf c b) ≠ 0)), { s with ci := ci' }) ∧ Coh c ci' V b ∧ CiSame s.ci ci' ∧
      ((s.ci.inited = true ∧ s.ci.logical = b ∧ ci' = s.ci) ∨ ci'.pData = none) := by
  have hp := coord_posOf hc hb
  have hok := (posOf_ok hc hb).1
  obtain ⟨x, hnb⟩ := h.nb_isSome
  have hcond : ¬ (s.ci.nodeBuf = none ∨ c.dataBlocks ≤ b) := by
    rw [hnb]; rintro (h1 | h1)
    · cases h1
    · omega
  have hbody : ∃ ci', (do seekCoord c b; seekDindir; seekIndir) s = (.ok (), { s with ci := ci' }) ∧ Coh c ci' V b ∧ CiSame s.ci ci' ∧
      ((s.ci.inited = true ∧ s.ci.logical = b ∧ ci' = s.ci) ∨ ci'.pData = none) := by
    by_cases hsame : s.ci.logical ≠ b ∨ s.ci.inited = false
    · have e1 : seekCoord c b s = (.ok (), { s with ci := seekPos s.ci b (posOf c b) }) := by
        unfold seekCoord
        simp only [run_bind, run_get]
        rw [if_neg hcond, if_pos hsame]
        simp only [setCi, run_modify, seekCi_pos]
      obtain ⟨ci', e2, h1, h2, h3, h4, h5⟩ := seek_body hc h hp hok hz (by
        intro hi
        rcases hsame with hs | hs
        · exact (hpre hi).2 hs
        · rw [hi] at hs; cases hs)
      refine ⟨ci', ?_, ⟨h1, h2, h3, by rw [h4]; intro x hx; cases hx⟩, h5, Or.inr h4⟩
      simp only [run_bind, e1] at e2 ⊢
      exact e2
    · have e1 : seekCoord c b s = (.ok (), s) := by
        unfold seekCoord
        simp only [run_bind, run_get]
        rw [if_neg hcond, if_neg hsame]; rfl
      rw [not_or, Decidable.not_not, Bool.not_eq_false] at hsame
      have hco := (hpre hsame.2).1 hsame.1
      have e2 := seek_again h hp hok hz hco.pos
      refine ⟨s.ci, ?_, hco, .refl _, Or.inl ⟨hsame.2, hsame.1, rfl⟩⟩
      simp only [run_bind, e1] at e2 ⊢
      exact e2
  obtain ⟨ci', e, hco, hsame, hpd⟩ := hbody
  refine ⟨ci', ?_, hco, hsame, hpd⟩
  have hdb : ci'.dataBlk = V (posOf c b) := hco.dataBlk hc hb
  have hS : seekInode c b s = (if V (posOf c b) = 0 then .error .enodata else .ok (), { s with ci := ci' }) := by
    have e' : (do seekCoord c b; seekDindir; seekIndir; let s ← get; if s.ci.dataBlk = 0 then fail .enodata else pure ()) s
        = (if V (posOf c b) = 0 then .error .enodata else .ok (), { s with ci := ci' }) := by
      simp only [run_bind] at e ⊢
      rcases h1 : seekCoord c b s with ⟨r | _, s1⟩
      · rw [h1] at e; simp at e
      · rw [h1] at e
        simp only at e ⊢
        rcases h2 : seekDindir s1 with ⟨r | _, s2⟩
        · rw [h2] at e; simp at e
        · rw [h2] at e
          simp only at e ⊢
          rw [e]
          simp only [run_get, hdb]
          split <;> rfl
    unfold seekInode
    simp only [run_bind, run_get, if_neg hcond]
    simp only [run_bind] at e'
    exact e'
  unfold seekData
  simp only [run_bind, run_attempt, hS]
  by_cases h0 : V (posOf c b) = 0 <;> simp [h0]

theorem Coh.seekPre {ci : Cinode} {b : Nat} (hc : c.Ok) (hb : b < c.dataBlocks) (h : Coh c ci V b) {b' : Nat} (hb' : b' < c.dataBlocks) :
    SeekPre c ci V b' := by
  intro _
  constructor
  · intro e; rw [h.logical] at e; subst e; exact h
  · intro _
    have h1 := coord_posOf hc hb
    have h2 := coord_posOf hc hb'
    have h3 := h.pos
    generalize posOf c b = p at *
    generalize posOf c b' = p' at *
    have nzl : ∀ q x, nz q = some x → x = q ∧ x ≠ 0 := by
      intro q x hx; unfold nz at hx; split at hx
      · cases hx
      · injection hx with hx; subst hx; exact ⟨rfl, by assumption⟩
    cases h2 with
    | direct => trivial
    | indir e k g1 g2 g3 hbe =>
      intro he
      cases h1 with
      | direct hd => have := h3.1; omega
      | indir e' k' _ _ _ _ =>
        obtain ⟨k1, k2, k3, k4, k5, k6, k7⟩ := h3
        rw [he] at k1; subst k1
        refine ⟨k5, fun x hx => ?_⟩
        rw [k6] at hx; rw [← k5]; exact nzl _ _ hx
      | dindir e' d' k' g4 _ _ _ _ => have := h3.1; omega
    | dindir e d k g1 g2 g3 g4 hbe =>
      intro he
      cases h1 with
      | direct hd => have := h3.1; omega
      | indir e' k' _ g5 _ _ => have := h3.1; omega
      | dindir e' d' k' g5 _ _ _ _ =>
        obtain ⟨k1, k2, k3, k4, k5, k6, k7, k8⟩ := h3
        rw [he] at k1; subst k1
        refine ⟨k4, fun x hx => ?_, fun x hx hd => ?_⟩
        · rw [k5] at hx; rw [← k4]; exact nzl _ _ hx
        · rw [k2] at hd; injection hd with hd; subst hd
          rw [k7] at hx; rw [← k6]; exact nzl _ _ hx

end RedFs
