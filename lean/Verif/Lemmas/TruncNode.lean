import Verif.Lemmas.Trunc
set_option linter.unusedSimpArgs false
set_option linter.unusedVariables false
namespace RedFs
open M Bitmap Vol

variable {c : Conf} {O : Nat → Prop} {s s' s1 s2 : DS} {V V' V1 V2 : Pos → Nat} {Z Z' Z1 Z2 G G1 G2 : Pos → Prop}

theorem anyEntry_iff {es : Nat → Nat} {n : Nat} : anyEntry es n = true ↔ ∃ k, k < n ∧ es k ≠ 0 := by
  unfold anyEntry
  rw [List.any_eq_true]
  constructor
  · rintro ⟨k, h1, h2⟩; exact ⟨k, List.mem_range.1 h1, by simpa using h2⟩
  · rintro ⟨k, h1, h2⟩; exact ⟨k, List.mem_range.2 h1, by simpa using h2⟩

theorem anyEntry_false {es : Nat → Nat} {n : Nat} (h : anyEntry es n = false) {k : Nat} (hk : k < n) : es k = 0 := by
  apply Decidable.byContradiction; intro hn
  have := anyEntry_iff.2 ⟨k, hk, hn⟩
  rw [h] at this; cases this

/-- `BranchBlock` of nodes that exist does not change the file. -/
theorem BRes.sh (hc : c.Ok) (h : FInv c O s V noZ) {b depth : Nat} (hb : b < c.dataBlocks) (hd : depth ≤ 1) {fB : Bool} (r : BRes c O s s' V V' b depth fB)
    (hp : ∀ x, brSet depth (posOf c b) x → V x ≠ 0) : Sh c O s s' V V' noZ (fun _ => False) ∧ tot s'.v = tot s.v where
  left := {
    inv := r.inv
    cnt := r.cnt
    fr := r.fr
    gone := fun _ _ h => h.elim
    sub := fun p hpk hn => by
      by_cases hL : brSet depth (posOf c b) p
      · exact hp p hL
      · rw [r.same p hL] at hn; exact hn
    keep := fun p hpk _ hn => by
      by_cases hL : brSet depth (posOf c b) p
      · exact (r.new p hL).1
      · rw [r.same p hL]; exact hn
    leaf := fun p hpk hl _ => by
      have hL : ¬ brSet depth (posOf c b) p := by
        intro hL
        have hle := leaf_eq hc hpk hl
        by_cases h0 : V p = 0
        · exact hp p hL h0
        · have := h.inside p hpk h0
          rw [hle] at hL
          have := (leaf_ne_anc hc hb this hL).1
          omega
      refine ⟨r.same p hL, fun hn => r.leaf p hpk hl hL hn⟩
    new := fun p hpk hn hN => by
      by_cases hL : brSet depth (posOf c b) p
      · exact (r.new p hL).2
      · rw [r.same p hL] at hn ⊢
        exact (r.keep p hpk hL hn).2 hN
    tot := Nat.le_of_eq (r.totEq hp).symm }
  right := r.totEq hp

/-- The coordinates above the node at `a`. -/
def CohUp (ci : Cinode) (V : Pos → Nat) : Pos → Prop
  | .ent e => ci.inodeEntry = e
  | .sub (.ent e) d => ci.inodeEntry = e ∧ ci.dindirEntry = some d ∧ ci.dindirBlk = V (.ent e) ∧ ci.pDindir = nz ci.dindirBlk
  | _ => False

/-- Coordinates that are not at `b` any more but allow seeking elsewhere. -/
structure Away (c : Conf) (ci : Cinode) (V : Pos → Nat) (a : Pos) (b k : Nat) : Prop where
  inited : ci.inited = true
  logical : ci.logical = b
  indirEntry : ci.indirEntry = some k
  up : CohUp ci V a

theorem nz_some {q x : Nat} (h : nz q = some x) : x = q ∧ x ≠ 0 := by
  unfold nz at h; split at h
  · cases h
  · injection h with h; subst h; exact ⟨rfl, by assumption⟩

theorem Away.seekPre {ci : Cinode} {a : Pos} {b k b' : Nat} (hc : c.Ok) (hb : b < c.dataBlocks) (hpos : posOf c b = .sub a k)
    (h : Away c ci V a b k) (hb' : b' < c.dataBlocks) (hne : ∀ k', posOf c b' ≠ .sub a k') : SeekPre c ci V b' := by
  intro _
  have hbb : b' ≠ b := by rintro rfl; exact hne k hpos
  refine ⟨fun hl => absurd (hl.symm.trans h.logical) hbb, fun _ => ?_⟩
  have h1 := coord_posOf hc hb
  have h2 := coord_posOf hc hb'
  rw [hpos] at h1
  have hu := h.up
  generalize posOf c b' = p' at h2 hne
  cases h2 with
  | direct => trivial
  | indir e' k' g1 g2 g3 hbe =>
    intro he
    cases h1 with
    | indir e k f1 f2 f3 fb =>
      simp only [CohUp] at hu
      have : e' = e := by rw [← he, hu]
      subst this; exact absurd rfl (hne k')
    | dindir e d k f1 f2 f3 f4 fb => have := hu.1; omega
  | dindir e' d' k' g1 g2 g3 g4 hbe =>
    intro he
    cases h1 with
    | indir e k f1 f2 f3 fb => simp only [CohUp] at hu; omega
    | dindir e d k f1 f2 f3 f4 fb =>
      obtain ⟨u1, u2, u3, u4⟩ := hu
      have : e' = e := by rw [← he, u1]
      subst this
      refine ⟨u3, fun x hx => ?_, fun x hx hd => ?_⟩
      · rw [u4] at hx; rw [← u3]; exact nz_some hx
      · rw [u2] at hd; injection hd with hd; subst hd
        exact absurd rfl (hne k')

/-- What the coordinates say about the node above the data block. -/
theorem Coh.node {ci : Cinode} {a : Pos} {b k : Nat} (hc : c.Ok) (hb : b < c.dataBlocks) (hpos : posOf c b = .sub a k) (h : Coh c ci V b) :
    ci.indirBlk = V a ∧ ci.pIndir = nz (V a) ∧ Away c ci V a b k ∧ PosOk c a ∧ a.lvl c = 1 ∧ a.first c + k = b ∧ k < c.indirEntries := by
  have h1 := coord_posOf hc hb
  have hok := posOf_ok hc hb
  have hc2 := h.pos
  have hl := h.logical
  have hi := h.inited
  rw [hpos] at h1 hok hc2
  have hlv : 0 < a.lvl c := hok.1.2.1
  have hlv0 : a.lvl c - 1 = 0 := hok.2.1
  have hl1 : a.lvl c = 1 := by omega
  have hf : a.first c + k = b := by
    have := hok.2.2
    simp only [Pos.first] at this
    rw [if_pos hl1] at this; omega
  cases h1 with
  | indir e k f1 f2 f3 fb =>
    obtain ⟨k1, k2, k3, k4, k5, k6, k7⟩ := hc2
    exact ⟨k5, by rw [← k5]; exact k6, ⟨hi, hl, k3, k1⟩, hok.1.1, hl1, hf, f3⟩
  | dindir e d k f1 f2 f3 f4 fb =>
    obtain ⟨k1, k2, k3, k4, k5, k6, k7, k8⟩ := hc2
    exact ⟨k6, by rw [← k6]; exact k7, ⟨hi, hl, k3, k1, k2, k4, k5⟩, hok.1.1, hl1, hf, f4⟩

theorem Away.of {ci ci' : Cinode} {a : Pos} {b k : Nat} (h : Away c ci V a b k) (h1 : ci'.inited = ci.inited) (h2 : ci'.logical = ci.logical)
    (h3 : ci'.indirEntry = ci.indirEntry) (h4 : ci'.inodeEntry = ci.inodeEntry) (h5 : ci'.dindirEntry = ci.dindirEntry)
    (h6 : ci'.dindirBlk = ci.dindirBlk) (h7 : ci'.pDindir = ci.pDindir) (hV : ∀ e d, a = .sub (.ent e) d → V' (.ent e) = V (.ent e)) :
    Away c ci' V' a b k := by
  refine ⟨h1.trans h.inited, h2.trans h.logical, h3.trans h.indirEntry, ?_⟩
  have hu := h.up
  rcases a with e | ⟨e | ⟨p, d⟩, d'⟩
  · simp only [CohUp] at *; rw [h4]; exact hu
  · simp only [CohUp] at *; rw [h4, h5, h6, h7, hV e d' rfl]; exact hu
  · exact hu

/-- What `TruncIndir` removes. -/
def cutI (a : Pos) (k : Nat) (freed : Bool) : Pos → Prop := fun p => (∃ k', k ≤ k' ∧ p = .sub a k') ∨ (freed = true ∧ p = a)

theorem truncIndir_spec (hc : c.Ok) (h : FInv c O s V Z) (hcnt : Cnt c s V) {a : Pos} {b k : Nat} (hb : b < c.dataBlocks)
    (hpos : posOf c b = .sub a k) (hco : Coh c s.ci V b) (hz : ∀ k', ¬ Z (.sub a k')) (hza : ¬ Z a)
    (hk : 0 < k → Z = noZ ∧ s.ci.dirty = true) :
    (0 < k ∧ truncIndir c s = (.error .enospc, s) ∧ freeBlockCount c s.v < brCost c s V 1 (posOf c b) ∧ V a ≠ 0 ∧
      ∃ k', k' < k ∧ V (.sub a k') ≠ 0) ∨
    ∃ freed s' V', truncIndir c s = (.ok freed, s') ∧
      Sh c O s s' V V' (fun p => Z p ∨ (freed = true ∧ p = a)) (cutI a k freed) ∧
      Away c s'.ci V' a b k ∧ (k = 0 → V' a = 0) ∧ (freed = true → V a ≠ 0) ∧
      (freed = false → V a ≠ 0 → ∃ k', k' < k ∧ V (.sub a k') ≠ 0) := by
  obtain ⟨n1, n2, n3, n4, n5, n6, n7⟩ := hco.node hc hb hpos
  unfold truncIndir
  simp only [run_bind, run_get]
  by_cases ha0 : V a = 0
  · right
    have : s.ci.pIndir = none := by rw [n2]; simp [nz, ha0]
    simp only [this, run_pure]
    refine ⟨false, s, V, rfl, ?_, n3, fun _ => ha0, (fun h => by cases h), fun _ h => absurd ha0 h⟩
    have e : (fun p => Z p ∨ (false = true ∧ p = a)) = Z := by funext p; simp
    rw [e]
    refine (Sh.refl h hcnt).more (fun _ _ h => h.elim) ?_
    rintro p hp (⟨k', _, rfl⟩ | ⟨h1, _⟩)
    · exact Or.inr (h.child0 hp ha0)
    · cases h1
  have hpi : s.ci.pIndir = some (V a) := by rw [n2]; simp [nz, ha0]
  have hie : s.ci.indirEntry = some k := n3.indirEntry
  have hptr : ∀ k', k' < c.indirEntries → (s.v.blk (V a)).ptrs k' = V (.sub a k') := by
    intro k' hk'
    rw [h.sub a k' ⟨n4, by omega, hk'⟩ (hz k'), if_neg ha0]
  have hfar : ∀ (V : Pos → Nat) (s : DS) (Z : Pos → Prop), FInv c O s V Z → ∀ k', PosOk c (.sub a k') → V (.sub a k') ≠ 0 →
      k' < min c.indirEntries (c.dataBlocks - a.first c) := by
    intro V s Z hI k' hp hn
    have h1 := hI.inside _ hp hn
    have h2 := hp.2.2
    simp only [Pos.first] at h1
    rw [if_pos n5] at h1
    omega
  simp only [hpi, hie]
  by_cases hfb : anyEntry (s.v.blk (V a)).ptrs k = true
  · -- some entry stays: branch, then zero the rest
    obtain ⟨k0, hk0, hk1⟩ := anyEntry_iff.1 hfb
    rw [hptr k0 (by omega)] at hk1
    obtain ⟨hZ, hd⟩ := hk (by omega)
    subst hZ
    simp only [hfb, if_true, run_bind, onlyIf_pos]
    rcases branchBlock_spec hc h hd hcnt hb hco 1 (by omega) false with ⟨e1, hlt⟩ | ⟨V1, s1, e1, r⟩
    · left
      exact ⟨by omega, by rw [e1], hlt, ha0, k0, hk0, hk1⟩
    · right
      rw [e1]
      simp only [run_get]
      have hbs : ∀ x, brSet 1 (posOf c b) x → V x ≠ 0 := by
        intro x hx
        rw [hpos] at hx
        rcases hx with (hx | hx) | ⟨hx, _⟩
        · cases a with
          | ent e => cases hx
          | sub a' k'' =>
            injection hx with hx; subst hx
            exact h.up n4 ha0
        · unfold ancI at hx
          rw [if_pos (by omega)] at hx
          injection hx with hx; subst hx; exact ha0
        · omega
      obtain ⟨sh1, ht1⟩ := r.sh hc h hb (by omega) hbs
      obtain ⟨m1, m2, m3, m4, m5, m6, m7⟩ := r.coh.node hc hb hpos
      have hL : brSet 1 (posOf c b) a := by
        rw [hpos]; exact Or.inl (Or.inr (by unfold ancI; rw [if_pos (by omega)]; rfl))
      obtain ⟨hn1, hN1⟩ := r.new a hL
      have hpi1 : s1.ci.pIndir.getD 0 = V1 a := by rw [m2]; simp [nz, hn1]
      have hlog1 : s1.ci.logical - k = a.first c := by rw [m3.logical]; omega
      rw [hpi1, hlog1]
      have hin := hfar V1 s1 noZ r.inv
      obtain ⟨s2, V2, e2, c2, v2, sh2⟩ := truncIndirLoop_spec hc n4 n5 true (min c.indirEntries (c.dataBlocks - a.first c) - k) k s1 V1 noZ
        r.inv r.cnt hn1 (fun _ _ h => h) (fun _ => hN1) (by omega) (by omega)
      rw [e2]
      simp only [run_pure]
      have hkid : ∀ p, kids a k (min c.indirEntries (c.dataBlocks - a.first c) - k) p → p ≠ a := by
        rintro p ⟨k', _, _, rfl⟩; exact sub_ne a k'
      have hVa : V2 a = V1 a := v2 a (fun h => hkid a h rfl)
      have hnk : ∀ e d, a = .sub (.ent e) d → V2 (.ent e) = V1 (.ent e) := by
        rintro e d rfl
        apply v2
        rintro ⟨k', _, _, h3⟩; cases h3
      refine ⟨false, s2, V2, rfl, ?_, ?_, ?_, (fun h => by cases h), fun _ _ => ⟨k0, hk0, hk1⟩⟩
      · have hsh := sh1.trans hc sh2
        have e : (fun p => noZ p ∨ (false = true ∧ p = a)) = noZ := by funext p; simp
        have e' : (fun p => noZ p ∨ (true = false ∧ kids a k (min c.indirEntries (c.dataBlocks - a.first c) - k) p)) = noZ := by funext p; simp
        rw [e] ; rw [e'] at hsh
        refine hsh.more ?_ ?_
        · rintro p hp (h1 | ⟨k', h1, h2, rfl⟩)
          · exact h1.elim
          · exact Or.inl ⟨k', h1, rfl⟩
        · rintro p hp (⟨k', h1, rfl⟩ | ⟨h1, _⟩)
          · by_cases hlt : k' < min c.indirEntries (c.dataBlocks - a.first c)
            · exact Or.inl (Or.inr ⟨k', h1, by omega, rfl⟩)
            · right
              apply Decidable.byContradiction; intro hn
              exact hlt (hfar V2 s2 _ hsh.inv k' hp hn)
          · cases h1
      · refine m3.of (by rw [c2]) (by rw [c2]) (by rw [c2]) (by rw [c2]) (by rw [c2]) (by rw [c2]) (by rw [c2]) hnk
      · omega
  · -- no entry stays: free everything and the node itself
    have hfb' : anyEntry (s.v.blk (V a)).ptrs k = false := by simpa using hfb
    right
    simp only [hfb', Bool.false_eq_true, if_false, run_bind, onlyIf_neg, not_false_eq_true, run_get]
    have hlog : s.ci.logical - k = a.first c := by rw [n3.logical]; omega
    rw [hlog]
    have hgd : s.ci.pIndir.getD 0 = V a := by rw [hpi]; rfl
    rw [hgd]
    obtain ⟨s2, V2, e2, c2, v2, sh2⟩ := truncIndirLoop_spec hc n4 n5 false (min c.indirEntries (c.dataBlocks - a.first c) - k) k s V Z
      h hcnt ha0 (fun k' _ => hz k') (fun h => by cases h) (by omega) (by omega)
    rw [e2]
    have hkid : ∀ p, kids a k (min c.indirEntries (c.dataBlocks - a.first c) - k) p → p ≠ a := by
      rintro p ⟨k', _, _, rfl⟩; exact sub_ne a k'
    have hVa : V2 a = V a := v2 a (fun h => hkid a h rfl)
    have hnk : ∀ e d, a = .sub (.ent e) d → V2 (.ent e) = V (.ent e) := by
      rintro e d rfl
      apply v2
      rintro ⟨k', _, _, h3⟩; cases h3
    have hch : ∀ k', PosOk c (.sub a k') → V2 (.sub a k') = 0 := by
      intro k' hp
      apply Decidable.byContradiction; intro hn
      have hlt := hfar V2 s2 _ sh2.inv k' hp hn
      by_cases hkk : k ≤ k'
      · exact hn (sh2.gone _ hp ⟨k', hkk, by omega, rfl⟩)
      · have := sh2.sub _ hp hn
        rw [← hptr k' hp.2.2] at this
        exact this (anyEntry_false hfb' (by omega))
    simp only [setCi, run_modify, run_get]
    let s3 : DS := { s2 with ci := { s2.ci with pIndir := none } }
    have sh3 : Sh c O s s3 V V2 _ _ := sh2.trans hc (Sh.of_ci (ci' := { s2.ci with pIndir := none }) ⟨rfl, rfl, rfl, rfl, rfl, rfl⟩ sh2.inv sh2.cnt)
    have hblk2 : s2.ci.indirBlk = V2 a := by rw [c2, hVa]; exact n1
    obtain ⟨v', e4, hF⟩ := sh3.inv.freeStep hc n4 (by rw [hVa]; exact ha0) hch
    have e4' : imapBlockSet c s2.ci.indirBlk false s2.v = (.ok (), v') := by rw [hblk2]; exact e4
    simp only [liftV, e4', run_pure]
    have hf := Conf.Ok.first_ge c
    refine ⟨true, ⟨{ s2.ci with pIndir := none }, v'⟩, upV V2 a 0, rfl, ?_, ?_, fun _ => upV_self _ _ _, fun _ => ha0, (fun h => by cases h)⟩
    · have sh4 : Sh c O s3 { s3 with v := v' } V2 (upV V2 a 0) (fun x => (Z x ∨ (false = false ∧ kids a k (min c.indirEntries (c.dataBlocks - a.first c) - k) x)) ∨ x = a) (fun x => x = a) := by
        refine { inv := hF.inv, cnt := ?_, fr := hF.fr, gone := fun p _ hp => hp ▸ upV_self _ _ _, sub := ?_, keep := fun p _ hne hn => by rwa [upV_ne _ _ hne],
                 leaf := ?_, new := ?_, tot := by rw [hF.tot]; omega }
        · refine sh3.cnt.congr rfl (fun x hx => ?_)
          have hokx := posOf_ok hc hx
          apply upV_ne
          intro e; rw [e] at hokx; omega
        · intro p hp hn
          have : p ≠ a := by rintro rfl; exact hn (upV_self _ _ _)
          rwa [upV_ne _ _ this] at hn
        · intro p hp hl hne
          refine ⟨upV_ne _ _ hne, fun hn => ?_⟩
          have := sh3.inv.range p hp hn
          exact hF.blk _ (by omega) (fun e => hne (sh3.inv.inj _ _ hp n4 hn e))
        · intro p hp hn hN
          have hpa : p ≠ a := by rintro rfl; exact hn (upV_self _ _ _)
          rw [upV_ne _ _ hpa] at hn ⊢
          exact (hF.new p hp hpa hn).2 hN
      refine ((sh3.trans hc sh4).reZ ?_ ?_).more ?_ ?_
      · rintro p hp (hZp | ⟨_, rfl⟩)
        · have : p ≠ a := by rintro rfl; exact hza hZp
          rw [upV_ne _ _ this]
          exact sh2.inv.zero p hp (Or.inl hZp)
        · exact upV_self _ _ _
      · intro p hp hz1 hz2
        rcases hz1 with (hz1 | ⟨_, k', g1, g2, rfl⟩) | hz1
        · exact absurd (Or.inl hz1) hz2
        · exact ⟨a, k', rfl, upV_self _ _ _⟩
        · exact absurd (Or.inr ⟨rfl, hz1⟩) hz2
      · rintro p hp ((⟨k', h1, h2, rfl⟩ | h1) | h1)
        · exact Or.inl ⟨k', h1, rfl⟩
        · exact h1.elim
        · exact Or.inr ⟨rfl, h1⟩
      · rintro p hp (⟨k', h1, rfl⟩ | ⟨_, h1⟩)
        · right
          rw [upV_ne _ _ (sub_ne a k')]; exact hch k' hp
        · exact Or.inl (Or.inr h1)
    · refine n3.of (ci' := { s2.ci with pIndir := none }) (by show s2.ci.inited = _; rw [c2]) (by show s2.ci.logical = _; rw [c2])
        (by show s2.ci.indirEntry = _; rw [c2]) (by show s2.ci.inodeEntry = _; rw [c2]) (by show s2.ci.dindirEntry = _; rw [c2])
        (by show s2.ci.dindirBlk = _; rw [c2]) (by show s2.ci.pDindir = _; rw [c2]) ?_
      intro e d he
      rw [upV_ne]
      · exact hnk e d he
      · rw [he]; intro h; cases h

end RedFs
