import Verif.Lemmas.DirGeo
import Verif.Lemmas.FsLink
set_option linter.unusedSimpArgs false
set_option linter.unusedVariables false
namespace RedFs
open M Bitmap Vol Str

variable {c : Conf} {v v' : Vol} {ci ci' : Cinode} {d : ADir}

/-- A mounted directory. -/
structure MDir (c : Conf) (v : Vol) (ci : Cinode) (d : ADir) : Prop where
  mnt : Mnt c v ci
  file : DirFile c (ciFile c v ci) d
  ok : DirOk c d

theorem MDir.dir (h : MDir c v ci d) : ci.dir = true := by
  rw [h.mnt.dir]; have := h.file.mode; exact decide_eq_true this
theorem MDir.size (h : MDir c v ci d) : ci.node.size = dirSize c d.n := h.file.size
theorem MDir.count (hp : c.PosixOk) (h : MDir c v ci d) : c.offIdx ci.node.size = d.n := by rw [h.size, offIdx_dirSize hp]
theorem MDir.nb (h : MDir c v ci d) : ci.nodeBuf ≠ none := by
  obtain ⟨w, e, _⟩ := h.mnt.nb; rw [e]; simp
theorem MDir.ro (h : MDir c v ci d) (m' : Mnt c v ci') (e : CiSame ci ci') : MDir c v ci' d := by
  refine ⟨m', ?_, h.ok⟩
  have : ciFile c v ci' = ciFile c v ci := by unfold ciFile; rw [e.node, e.ino]
  rw [this]; exact h.file

theorem MDir.byte (hp : c.PosixOk) (h : MDir c v ci d) {k j : Nat} (hk : k < d.n) (hj : j < c.ds) :
    byteAt c v.blk (tree c v ci.ino) (c.idxOff k + j) = encEnt (d.slot k) j := by
  have := h.file.bytes (c.idxOff k + j)
  rw [dirByte_ent hp _ hj] at this
  rw [← this]
  show _ = if _ < ci.node.size then _ else _
  rw [if_pos (by rw [h.size]; exact (dirSize_gt hp hj).2 hk)]

/-- The entries in a block. -/
theorem MDir.blk (hp : c.PosixOk) (h : MDir c v ci d) {k : Nat} (hk : k < d.n) :
    (tree c v ci.ino (posOf c (k / c.dpb)) ≠ 0 → ∀ j, j < c.ds → (v.blk (tree c v ci.ino (posOf c (k / c.dpb)))).bytes (k % c.dpb * c.ds + j) = encEnt (d.slot k) j) ∧
    (tree c v ci.ino (posOf c (k / c.dpb)) = 0 → ∀ j, j < c.ds → encEnt (d.slot k) j = 0) := by
  have hb : ∀ j, j < c.ds → cont c v.blk (tree c v ci.ino) (k / c.dpb) (k % c.dpb * c.ds + j) = encEnt (d.slot k) j := by
    intro j hj
    have := h.byte hp hk hj
    unfold byteAt at this
    rwa [off_div hp hj, off_mod hp hj] at this
  constructor
  · intro hne j hj
    rw [← hb j hj]; unfold cont; rw [if_neg hne]
  · intro he j hj
    rw [← hb j hj]; unfold cont; rw [if_pos he]

theorem MDir.sparse (hc : c.Ok) (hp : c.PosixOk) (h : MDir c v ci d) {k : Nat} (hk : k < d.n) (he : tree c v ci.ino (posOf c (k / c.dpb)) = 0) : d.slot k = none := by
  rcases hs : d.slot k with _ | ⟨i, s⟩
  · rfl
  · have h1 : le32 (encEnt (d.slot k)) = 0 := by
      rw [le32_congr (g := fun _ => (0 : Byte)) (fun j hj => (h.blk hp hk).2 he j (by have := ds_ge hp; omega))]; rfl
    rw [encEnt_ino (fun i s hs => (inode_small hc (h.ok.ino k i s hs)).1), hs] at h1
    exact absurd h1 (inode_small hc (h.ok.ino k i s hs)).2

/-- The block `x` holds the entries `idx, idx+1, ...` of the directory. -/
def Holds (c : Conf) (d : ADir) (x : Blk) (idx n : Nat) : Prop :=
  ∀ k, k < n → ∀ j, j < c.ds → x.bytes (k * c.ds + j) = encEnt (d.slot (idx + k)) j

theorem MDir.holds (hp : c.PosixOk) (h : MDir c v ci d) {b n : Nat} (hn : b * c.dpb + n ≤ d.n) (hnd : n ≤ c.dpb) (hne : tree c v ci.ino (posOf c b) ≠ 0) :
    Holds c d (v.blk (tree c v ci.ino (posOf c b))) (b * c.dpb) n := by
  intro k hk j hj
  have hdp := dpb_pos hp
  have e1 : (b * c.dpb + k) / c.dpb = b := by
    rw [Nat.mul_comm, Nat.mul_add_div hdp, Nat.div_eq_of_lt (by omega : k < c.dpb)]; omega
  have e2 : (b * c.dpb + k) % c.dpb = k := by
    rw [Nat.mul_comm, Nat.mul_add_mod, Nat.mod_eq_of_lt (by omega)]
  have := (h.blk hp (k := b * c.dpb + k) (by omega)).1 (by rw [e1]; exact hne) j hj
  rwa [e1, e2] at this

theorem Holds.ino (hc : c.Ok) (hp : c.PosixOk) (ok : DirOk c d) {x : Blk} {idx n k : Nat} (h : Holds c d x idx n) (hk : k < n) : direntIno c x k = entIno (d.slot (idx + k)) := by
  unfold direntIno
  rw [le32_congr (g := encEnt (d.slot (idx + k))) (fun j hj => h k hk j (by have := ds_ge hp; omega))]
  exact encEnt_ino (fun i s hs => (inode_small hc (ok.ino _ i s hs)).1)

theorem Holds.used (hc : c.Ok) (hp : c.PosixOk) (ok : DirOk c d) {x : Blk} {idx n k : Nat} (h : Holds c d x idx n) (hk : k < n) :
    direntIno c x k = 0 ↔ d.slot (idx + k) = none := by
  rw [h.ino hc hp ok hk]
  rcases hs : d.slot (idx + k) with _ | ⟨i, s⟩
  · simp [entIno]
  · simp only [entIno, reduceCtorEq, iff_false]
    exact (inode_small hc (ok.ino _ i s hs)).2

theorem Holds.name (hp : c.PosixOk) {x : Blk} {idx n k i : Nat} {s : List Byte} (h : Holds c d x idx n) (hk : k < n) (hs : d.slot (idx + k) = some (i, s)) (hl : s.length ≤ c.nameMax) :
    direntName c x k = s ++ List.replicate (c.nameMax - s.length) 0#8 := by
  unfold direntName
  rw [← encEnt_name (i := i) hl]
  apply List.map_congr_left
  intro j hj
  rw [List.mem_range] at hj
  rw [Nat.add_assoc, h k hk _ (by have := ds_name hp; omega), hs]

/-! ### Comparing names -/

theorem strNCmp_pad (s t : List Byte) (n k : Nat) : strNCmp (s ++ List.replicate n 0#8) t k = strNCmp s t k := by
  induction k generalizing s t with
  | zero => rfl
  | succ k ih =>
    cases s with
    | nil =>
      unfold strNCmp
      have : cget ([] ++ List.replicate n 0#8) 0 = 0#8 := by cases n <;> rfl
      rw [this]
      show (if 0#8 ≠ cget t 0 then _ else if (0#8 : Byte) = 0#8 then _ else _) = if cget [] 0 ≠ cget t 0 then _ else if cget [] 0 = 0#8 then _ else _
      rw [show cget [] 0 = 0#8 from rfl]
      simp
    | cons a s =>
      unfold strNCmp
      have e1 : cget (a :: s ++ List.replicate n 0#8) 0 = a := rfl
      have e2 : cget (a :: s) 0 = a := rfl
      have e3 : (a :: s ++ List.replicate n 0#8).drop 1 = s ++ List.replicate n 0#8 := rfl
      rw [e1, e2, e3, ih]; rfl

theorem takeWhile_take {α : Type} (p : α → Bool) (l : List α) : l.take (l.takeWhile p).length = l.takeWhile p := by
  induction l with
  | nil => rfl
  | cons a l ih =>
    rw [List.takeWhile_cons]
    split
    · simp [ih]
    · rfl

theorem cget_pad {s : List Byte} (hs : ∀ b ∈ s, b ≠ 0#8) (n k : Nat) : cget (s ++ List.replicate n 0#8) k = 0#8 ↔ s.length ≤ k := by
  unfold cget
  rw [List.getD_eq_getElem?_getD]
  by_cases h : k < s.length
  · rw [List.getElem?_append_left h, List.getElem?_eq_getElem h]
    simp only [Option.getD_some]
    constructor
    · intro e; exact absurd e (hs _ (List.getElem_mem h))
    · intro; omega
  · rw [List.getElem?_append_right (by omega)]
    have : (List.replicate n 0#8)[k - s.length]?.getD 0#8 = 0#8 := by
      rw [List.getElem?_replicate]; split <;> rfl
    simp only [this, true_iff]; omega

theorem nameLen_nameOf {name : List Byte} (h : CStr.Ok name) : nameLen c.sep name = (nameOf c name).length := by
  rw [nameLen_ok _ _ h]; unfold nameOf
  congr 2
  funext x
  rw [bne]; by_cases hx : x = c.sep <;> simp [hx]

theorem nameMatch_iff {name s : List Byte} (hn : CStr.Ok name) (hs : NameOk c s) (hl : (nameOf c name).length ≤ c.nameMax) :
    nameMatch c (s ++ List.replicate (c.nameMax - s.length) 0#8) name (nameOf c name).length = true ↔ s = nameOf c name := by
  unfold nameMatch
  rw [strNCmp_pad, Bool.and_eq_true, decide_eq_true_eq, strNCmp_zero s name hs.nul hn,
    show name.take (nameOf c name).length = nameOf c name from takeWhile_take _ _, Bool.or_eq_true, decide_eq_true_eq, decide_eq_true_eq, cget_pad hs.nul]
  constructor
  · rintro ⟨h1, h2⟩
    have : s.length ≤ (nameOf c name).length := by
      rcases h2 with h2 | h2
      · rw [h2]; exact hs.max
      · exact h2
    rwa [List.take_of_length_le this] at h1
  · intro e
    rw [← e]
    exact ⟨List.take_of_length_le (Nat.le_refl _), Or.inr (Nat.le_refl _)⟩

/-! ### Lookup -/

/-- Which free entry a scan of the first `n` entries has found. -/
def FreeIn (d : ADir) (n : Nat) : Option Nat → Prop
  | none => ∀ k, k < n → d.slot k ≠ none
  | some k => k < n ∧ d.slot k = none

/-- No entry among the first `n` has this name. -/
def NoName (d : ADir) (n : Nat) (s : List Byte) : Prop := ∀ k i, k < n → d.slot k ≠ some (i, s)

theorem lookupBlock_spec (hc : c.Ok) (hp : c.PosixOk) (ok : DirOk c d) {name : List Byte} (hn : CStr.Ok name) (hl : (nameOf c name).length ≤ c.nameMax)
    {x : Blk} {idx : Nat} : ∀ n k free, Holds c d x idx (k + n) → NoName d (idx + k) (nameOf c name) → FreeIn d (idx + k) free →
    (∃ k' i free', lookupBlock c x name (nameOf c name).length idx n k free = (some (k', i), free') ∧ idx ≤ k' ∧ k' < idx + k + n ∧ d.slot k' = some (i, nameOf c name)) ∨
    (∃ free', lookupBlock c x name (nameOf c name).length idx n k free = (none, free') ∧ NoName d (idx + k + n) (nameOf c name) ∧ FreeIn d (idx + k + n) free') := by
  intro n
  induction n with
  | zero => intro k free _ h1 h2; exact Or.inr ⟨free, rfl, h1, h2⟩
  | succ n ih =>
    intro k free H h1 h2
    unfold lookupBlock
    have hz := H.used hc hp ok (k := k) (by omega)
    rcases hs : d.slot (idx + k) with _ | ⟨i, s⟩
    · have := hz.2 hs
      rw [if_neg (by simp [this])]
      have hA : NoName d (idx + (k + 1)) (nameOf c name) := by
        intro k' i' hk'
        by_cases hh : k' < idx + k
        · exact h1 k' i' hh
        · rw [show k' = idx + k by omega, hs]; simp
      have hB : FreeIn d (idx + (k + 1)) (if free = none then some (idx + k) else free) := by
        cases free with
        | none => exact ⟨by omega, hs⟩
        | some f => exact ⟨by have := h2.1; omega, h2.2⟩
      rcases ih (k + 1) (if free = none then some (idx + k) else free) (by rw [show k + 1 + n = k + (n + 1) by omega]; exact H) hA hB with ⟨k', i', fr, e, a1, a2, a3⟩ | ⟨fr, e, a1, a2⟩
      · exact Or.inl ⟨k', i', fr, e, a1, by omega, a3⟩
      · exact Or.inr ⟨fr, e, by rw [show idx + k + (n + 1) = idx + (k + 1) + n by omega]; exact a1, by rw [show idx + k + (n + 1) = idx + (k + 1) + n by omega]; exact a2⟩
    · have hne : direntIno c x k ≠ 0 := fun h => by rw [hz.1 h] at hs; cases hs
      rw [if_pos hne]
      have hnm := ok.name _ i s hs
      have hname := H.name hp (k := k) (by omega) hs hnm.max
      rw [hname]
      by_cases hm : s = nameOf c name
      · rw [if_pos ((nameMatch_iff hn hnm hl).2 hm)]
        left
        refine ⟨idx + k, _, free, rfl, by omega, by omega, ?_⟩
        rw [hs, H.ino hc hp ok (by omega), hs, hm]; rfl
      · rw [if_neg (fun hh => hm ((nameMatch_iff hn hnm hl).1 hh))]
        have hA : NoName d (idx + (k + 1)) (nameOf c name) := by
          intro k' i' hk'
          by_cases hh : k' < idx + k
          · exact h1 k' i' hh
          · rw [show k' = idx + k by omega, hs]
            intro e; injection e with e; injection e with _ e; exact hm e
        have hB : FreeIn d (idx + (k + 1)) free := by
          cases free with
          | none =>
            intro k' hk'
            by_cases hh : k' < idx + k
            · exact h2 k' hh
            · rw [show k' = idx + k by omega, hs]; simp
          | some f => exact ⟨by have := h2.1; omega, h2.2⟩
        rcases ih (k + 1) free (by rw [show k + 1 + n = k + (n + 1) by omega]; exact H) hA hB with ⟨k', i', fr, e, a1, a2, a3⟩ | ⟨fr, e, a1, a2⟩
        · exact Or.inl ⟨k', i', fr, e, a1, by omega, a3⟩
        · exact Or.inr ⟨fr, e, by rw [show idx + k + (n + 1) = idx + (k + 1) + n by omega]; exact a1, by rw [show idx + k + (n + 1) = idx + (k + 1) + n by omega]; exact a2⟩

theorem lookupLoop_spec (hc : c.Ok) (hp : c.PosixOk) (h : Wf c v) {name : List Byte} (hn : CStr.Ok name) (hl : (nameOf c name).length ≤ c.nameMax) :
    ∀ fuel idx free ci, MDir c v ci d → d.n ≤ idx + fuel → (idx = d.n ∨ (idx % c.dpb = 0 ∧ idx < d.n)) → NoName d idx (nameOf c name) → FreeIn d idx free →
    ∃ r ci', lookupLoop c name (nameOf c name).length d.n fuel idx free ⟨ci, v⟩ = (.ok r, ⟨ci', v⟩) ∧ Mnt c v ci' ∧ CiSame ci ci' ∧
      ((∃ k i fr, r = (k, some i, fr) ∧ k < d.n ∧ d.slot k = some (i, nameOf c name)) ∨
       (∃ fr, r = (d.n, none, fr) ∧ NoName d d.n (nameOf c name) ∧ FreeIn d d.n fr)) := by
  intro fuel
  induction fuel with
  | zero =>
    intro idx free ci hd hf hi h1 h2
    have : idx = d.n := by omega
    subst this
    unfold lookupLoop
    rw [if_pos (Nat.le_refl _)]
    exact ⟨_, ci, rfl, hd.mnt, .refl ci, Or.inr ⟨free, rfl, h1, h2⟩⟩
  | succ fuel ih =>
    intro idx free ci hd hf hi h1 h2
    have hdp := dpb_pos hp
    unfold lookupLoop
    rcases hi with rfl | ⟨hm, hlt⟩
    · rw [if_pos (Nat.le_refl _)]
      exact ⟨_, ci, rfl, hd.mnt, .refl ci, Or.inr ⟨free, rfl, h1, h2⟩⟩
    rw [if_neg (by omega)]
    have hidx : idx / c.dpb * c.dpb = idx := by have := Nat.div_add_mod idx c.dpb; rw [hm, Nat.mul_comm] at this; omega
    obtain ⟨ci1, e, m1, s1, hpd⟩ := seekRead_file hc h hd.mnt (b := idx / c.dpb) (blk_max hp (by have := hd.ok.max; omega))
    simp only [run_bind, e]
    by_cases hz : tree c v ci.ino (posOf c (idx / c.dpb)) = 0
    · rw [if_neg (by simp [hz])]
      -- the whole block is free; it is not the last one
      have hfree : ∀ k, idx ≤ k → k < idx + c.dpb → k < d.n → d.slot k = none := by
        intro k hk1 hk2 hk3
        apply hd.sparse hc hp hk3
        rw [show k / c.dpb = idx / c.dpb from ?_]; exact hz
        obtain ⟨t, rfl⟩ := Nat.exists_eq_add_of_le hk1
        rw [← hidx, Nat.mul_comm, Nat.mul_add_div hdp, Nat.mul_div_cancel_left _ hdp, Nat.div_eq_of_lt (by omega : t < c.dpb)]; omega
      have hlast : idx + c.dpb < d.n := by
        by_contra hh
        exact hd.ok.last (by omega) (hfree (d.n - 1) (by omega) (by omega) (by omega))
      have hA : NoName d (idx + c.dpb) (nameOf c name) := by
        intro k i hk
        by_cases hh : k < idx
        · exact h1 k i hh
        · rw [hfree k (by omega) hk (by omega)]; simp
      have hB : FreeIn d (idx + c.dpb) (if free = none then some idx else free) := by
        cases free with
        | none => exact ⟨by omega, hfree idx (by omega) (by omega) hlt⟩
        | some f => exact ⟨by have := h2.1; omega, h2.2⟩
      obtain ⟨r, ci', e', m', s', hr⟩ := ih (idx + c.dpb) (if free = none then some idx else free) ci1 (hd.ro m1 s1) (by omega) (Or.inr ⟨by rw [Nat.add_mod_right]; exact hm, hlast⟩) hA hB
      exact ⟨r, ci', e', m', s1.trans s', hr⟩
    · rw [if_pos (by simp [hz])]
      have hpd := hpd hz
      have hbuf : dataBuf ⟨ci1, v⟩ = (.ok (v.blk (tree c v ci.ino (posOf c (idx / c.dpb)))), ⟨ci1, v⟩) := by
        unfold dataBuf; simp only [run_bind, run_get, run_pure, hpd]; rfl
      simp only [run_bind, hbuf]
      have H := hd.holds hp (b := idx / c.dpb) (n := min c.dpb (d.n - idx)) (by rw [hidx]; omega) (by omega) hz
      rw [hidx] at H
      rcases lookupBlock_spec hc hp hd.ok hn hl (min c.dpb (d.n - idx)) 0 free (by rw [Nat.zero_add]; exact H) h1 h2 with ⟨k', i, fr, e2, a1, a2, a3⟩ | ⟨fr, e2, a1, a2⟩
      · rw [e2]
        exact ⟨_, ci1, rfl, m1, s1, Or.inl ⟨k', i, fr, rfl, by omega, a3⟩⟩
      · rw [e2]
        have hA : idx + min c.dpb (d.n - idx) = d.n ∨ ((idx + min c.dpb (d.n - idx)) % c.dpb = 0 ∧ idx + min c.dpb (d.n - idx) < d.n) := by
          rcases Nat.lt_or_ge (idx + c.dpb) d.n with hh | hh
          · right; rw [show min c.dpb (d.n - idx) = c.dpb by omega]; exact ⟨by rw [Nat.add_mod_right]; exact hm, hh⟩
          · left; omega
        obtain ⟨r, ci', e', m', s', hr⟩ := ih (idx + min c.dpb (d.n - idx)) fr ci1 (hd.ro m1 s1) (by omega) hA a1 a2
        exact ⟨r, ci', e', m', s1.trans s', hr⟩

/-- The result of a lookup. -/
def LookupOk (c : Conf) (d : ADir) (s : List Byte) : LookupRes → Prop
  | .found k i => d.slot k = some (i, s)
  | .missing fr => (∀ k i, d.slot k ≠ some (i, s)) ∧
      match fr with
      | some k => k ≤ d.n ∧ k < c.direntsMax ∧ d.slot k = none
      | none => d.n = c.direntsMax ∧ ∀ k, k < d.n → d.slot k ≠ none

theorem dirLookup_spec (hc : c.Ok) (hp : c.PosixOk) (h : Wf c v) (hd : MDir c v ci d) {name : List Byte} (hn : CStr.Ok name) :
    ((nameOf c name).length = 0 ∧ dirLookup c name ⟨ci, v⟩ = (.error .einval, ⟨ci, v⟩)) ∨
    (c.nameMax < (nameOf c name).length ∧ dirLookup c name ⟨ci, v⟩ = (.error .enametoolong, ⟨ci, v⟩)) ∨
    (1 ≤ (nameOf c name).length ∧ (nameOf c name).length ≤ c.nameMax ∧ ∃ r ci', dirLookup c name ⟨ci, v⟩ = (.ok r, ⟨ci', v⟩) ∧ Mnt c v ci' ∧ CiSame ci ci' ∧ LookupOk c d (nameOf c name) r) := by
  unfold dirLookup
  simp only [run_bind, run_get]
  rw [if_neg hd.nb, if_neg (by rw [hd.dir]; simp), nameLen_nameOf hn]
  by_cases h0 : (nameOf c name).length = 0
  · left; rw [if_pos h0]; exact ⟨h0, rfl⟩
  right
  rw [if_neg h0]
  by_cases h1 : c.nameMax < (nameOf c name).length
  · left; rw [if_pos h1]; exact ⟨h1, rfl⟩
  right
  rw [if_neg h1]
  refine ⟨by omega, by omega, ?_⟩
  rw [hd.count hp]
  obtain ⟨r, ci', e, m', s', hr⟩ := lookupLoop_spec hc hp h hn (by omega) d.n 0 none ci hd (by omega)
    (by rcases Nat.eq_zero_or_pos d.n with hh | hh; (· exact Or.inl hh.symm); (· exact Or.inr ⟨Nat.zero_mod _, hh⟩))
    (fun k i hk => by omega) (fun k hk => by omega)
  simp only [run_bind, e]
  rcases hr with ⟨k, i, fr, rfl, hk, hs⟩ | ⟨fr, rfl, hno, hfr⟩
  · refine ⟨.found k i, ci', ?_, m', s', hs⟩
    simp only
    rw [if_neg (by omega)]; rfl
  · refine ⟨.missing (if fr = none ∧ d.n < c.direntsMax then some d.n else fr), ci', ?_, m', s', ?_, ?_⟩
    · simp only
      rw [if_pos trivial]; rfl
    · intro k i hk
      by_cases hkn : k < d.n
      · exact hno k i hkn hk
      · rw [hd.ok.out k (by omega)] at hk; cases hk
    · have hmax := hd.ok.max
      cases fr with
      | none =>
        by_cases hlt : d.n < c.direntsMax
        · rw [if_pos ⟨rfl, hlt⟩]; exact ⟨Nat.le_refl _, hlt, hd.ok.out _ (Nat.le_refl _)⟩
        · rw [if_neg (fun hh => hlt hh.2)]; exact ⟨by omega, hfr⟩
      | some f =>
        rw [if_neg (fun hh => by cases hh.1)]
        exact ⟨by have := hfr.1; omega, by have := hfr.1; omega, hfr.2⟩

end RedFs
