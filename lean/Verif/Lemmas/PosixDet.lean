import Verif.Lemmas.PosixHist
set_option linter.unusedSimpArgs false
set_option linter.unusedVariables false
set_option linter.unusedSectionVars false
/-!
A path has one meaning.
-/
namespace RedFs
open M Str Path Spec

section
variable {c : Conf} {v : Vol} (hc : c.SysOk) (hp : c.posix = true)
include hc hp

theorem reg_not_dir {F : Files} {i : Nat} {f g : AFile} (h : IsReg F i f) (h' : IsDir F i g) : False := by
  have e := h.1; rw [h'.1] at e; injection e with e; subst e
  exact modes_ne (h'.2.symm.trans h.2)

theorem has_dir {F : Files} {i j : Nat} {n : List Byte} (h : Has c F i n j) : ∃ f, IsDir F i f := by
  obtain ⟨k, hk⟩ := h; exact Props.Names.isDir_of_ent hk

/-- Following a path has one result. -/
theorem Walk.det (h : Reach c v) (hm : v.mounted = true) {dots : Prop} {i : Nat} {cs : List (List Byte)} {r r' : Except Err Nat}
    (w : Walk c (files c v) dots i cs r) (w' : Walk c (files c v) dots i cs r') : r = r' := by
  induction w with
  | done => cases w'; rfl
  | name hn hh w ih =>
    cases w' with
    | name hn' hh' w' => rw [Props.Names.has_fun hc hp h hm hh hh'] at ih; exact ih w'
    | dot hd => exact absurd ⟨hd, Or.inl rfl⟩ hn
    | up hd => exact absurd ⟨hd, Or.inr rfl⟩ hn
    | notDir hr => obtain ⟨g, hg⟩ := has_dir hc hp hh; exact (reg_not_dir hc hp hr hg).elim
    | tooLong _ _ hl => exact absurd (Posix.has_nameOk hc hp h hm hh).max (by omega)
    | missing _ _ _ hx => exact absurd hh (hx _)
  | dot hd hf w ih =>
    cases w' with
    | name hn' => exact absurd ⟨hd, Or.inl rfl⟩ hn'
    | dot _ _ w' => exact ih w'
    | notDir hr => exact (reg_not_dir hc hp hr hf).elim
    | tooLong hn => exact absurd ⟨hd, Or.inl rfl⟩ hn
    | missing hn => exact absurd ⟨hd, Or.inl rfl⟩ hn
  | up hd hf w ih =>
    cases w' with
    | name hn' => exact absurd ⟨hd, Or.inr rfl⟩ hn'
    | up _ hf' w' =>
      have e := hf.1; rw [hf'.1] at e; injection e with e; subst e; exact ih w'
    | notDir hr => exact (reg_not_dir hc hp hr hf).elim
    | tooLong hn => exact absurd ⟨hd, Or.inr rfl⟩ hn
    | missing hn => exact absurd ⟨hd, Or.inr rfl⟩ hn
  | notDir hr =>
    cases w' with
    | name _ hh' => obtain ⟨g, hg⟩ := has_dir hc hp hh'; exact (reg_not_dir hc hp hr hg).elim
    | dot _ hf => exact (reg_not_dir hc hp hr hf).elim
    | up _ hf => exact (reg_not_dir hc hp hr hf).elim
    | notDir => rfl
    | tooLong _ hf => exact (reg_not_dir hc hp hr hf).elim
    | missing _ hf => exact (reg_not_dir hc hp hr hf).elim
  | tooLong hn hf hl =>
    cases w' with
    | name _ hh' => exact absurd (Posix.has_nameOk hc hp h hm hh').max (by omega)
    | dot hd => exact absurd ⟨hd, Or.inl rfl⟩ hn
    | up hd => exact absurd ⟨hd, Or.inr rfl⟩ hn
    | notDir hr => exact (reg_not_dir hc hp hr hf).elim
    | tooLong => rfl
    | missing _ _ hl' => omega
  | missing hn hf hl hx =>
    cases w' with
    | name _ hh' => exact absurd hh' (hx _)
    | dot hd => exact absurd ⟨hd, Or.inl rfl⟩ hn
    | up hd => exact absurd ⟨hd, Or.inr rfl⟩ hn
    | notDir hr => exact (reg_not_dir hc hp hr hf).elim
    | tooLong _ _ hl' => omega
    | missing => rfl

/-- Following a path that starts at something that exists has a result. -/
theorem Walk.total (h : Reach c v) (hm : v.mounted = true) (dots : Prop) (cs : List (List Byte)) : ∀ {i : Nat}, files c v i ≠ none → ∃ r, Walk c (files c v) dots i cs r := by
  induction cs with
  | nil => exact fun _ => ⟨_, .done⟩
  | cons n cs ih =>
    intro i hi
    obtain ⟨f, hf | hf⟩ := file_kind hc hp h hm hi
    · exact ⟨_, .notDir hf⟩
    · by_cases hd : dots ∧ Dotty n
      · obtain ⟨hd, rfl | rfl⟩ := hd
        · obtain ⟨r, w⟩ := ih hi
          exact ⟨r, .dot hd hf w⟩
        · have hne : files c v (if i = 2 then 2 else f.parent) ≠ none := by
            split
            · obtain ⟨g, hg, _⟩ := root_dir hc hp h hm; rw [hg.1]; simp
            · rename_i e
              obtain ⟨g, hg⟩ := parent_dir hc hp h hm hf e
              rw [hg.1]; simp
          obtain ⟨r, w⟩ := ih hne
          exact ⟨r, .up hd hf w⟩
      · by_cases hl : n.length ≤ c.nameMax
        · by_cases hx : ∃ j, Has c (files c v) i n j
          · obtain ⟨j, hj⟩ := hx
            have hne : files c v j ≠ none := (has_live hc hp h hm hj).2.2.1
            obtain ⟨r, w⟩ := ih hne
            exact ⟨r, .name hd hj w⟩
          · exact ⟨_, .missing hd hf hl fun j hj => hx ⟨j, hj⟩⟩
        · exact ⟨_, .tooLong hd hf (by omega)⟩

theorem ToName.det (h : Reach c v) (hm : v.mounted = true) {dots : Prop} {start : Nat} {re : Err} {cs : List (List Byte)} {r r' : Except Err (Nat × List Byte)}
    (w : ToName c (files c v) dots start re cs r) (w' : ToName c (files c v) dots start re cs r') : r = r' := by
  generalize hcs : cs = cs' at w'
  cases w with
  | name hn w =>
    cases w' with
    | name hn' w' =>
      obtain ⟨e1, e2⟩ := List.append_inj' hcs rfl; injection e2 with e2; subst e1; subst e2
      have := Walk.det hc hp h hm w w'; injection this with this; rw [this]
    | error hn' w' =>
      obtain ⟨e1, e2⟩ := List.append_inj' hcs rfl; injection e2 with e2; subst e1; subst e2
      have := Walk.det hc hp h hm w w'; cases this
    | dotsError hd hn' => obtain ⟨e1, e2⟩ := List.append_inj' hcs rfl; injection e2 with e2; subst e2; exact absurd ⟨hd, hn'⟩ hn
    | dots hd hn' => obtain ⟨e1, e2⟩ := List.append_inj' hcs rfl; injection e2 with e2; subst e2; exact absurd ⟨hd, hn'⟩ hn
    | dotsRoot hd hn' => obtain ⟨e1, e2⟩ := List.append_inj' hcs rfl; injection e2 with e2; subst e2; exact absurd ⟨hd, hn'⟩ hn
    | root => simp at hcs
  | error hn w =>
    cases w' with
    | name hn' w' =>
      obtain ⟨e1, e2⟩ := List.append_inj' hcs rfl; injection e2 with e2; subst e1; subst e2
      have := Walk.det hc hp h hm w w'; cases this
    | error hn' w' =>
      obtain ⟨e1, e2⟩ := List.append_inj' hcs rfl; injection e2 with e2; subst e1; subst e2
      have := Walk.det hc hp h hm w w'; injection this with this; rw [this]
    | dotsError hd hn' => obtain ⟨e1, e2⟩ := List.append_inj' hcs rfl; injection e2 with e2; subst e2; exact absurd ⟨hd, hn'⟩ hn
    | dots hd hn' => obtain ⟨e1, e2⟩ := List.append_inj' hcs rfl; injection e2 with e2; subst e2; exact absurd ⟨hd, hn'⟩ hn
    | dotsRoot hd hn' => obtain ⟨e1, e2⟩ := List.append_inj' hcs rfl; injection e2 with e2; subst e2; exact absurd ⟨hd, hn'⟩ hn
    | root => simp at hcs
  | dotsError hd hn w =>
    cases w' with
    | name hn' w' => obtain ⟨e1, e2⟩ := List.append_inj' hcs rfl; injection e2 with e2; subst e2; exact absurd ⟨hd, hn⟩ hn'
    | error hn' w' => obtain ⟨e1, e2⟩ := List.append_inj' hcs rfl; injection e2 with e2; subst e2; exact absurd ⟨hd, hn⟩ hn'
    | dotsError hd hn' w' => rw [hcs] at w; have := Walk.det hc hp h hm w w'; injection this with this; rw [this]
    | dots hd hn' w' => rw [hcs] at w; have := Walk.det hc hp h hm w w'; cases this
    | dotsRoot hd hn' w' => rw [hcs] at w; have := Walk.det hc hp h hm w w'; cases this
    | root => simp at hcs
  | dots hd hn w h2 =>
    cases w' with
    | name hn' w' => obtain ⟨e1, e2⟩ := List.append_inj' hcs rfl; injection e2 with e2; subst e2; exact absurd ⟨hd, hn⟩ hn'
    | error hn' w' => obtain ⟨e1, e2⟩ := List.append_inj' hcs rfl; injection e2 with e2; subst e2; exact absurd ⟨hd, hn⟩ hn'
    | dotsError hd hn' w' => rw [hcs] at w; have := Walk.det hc hp h hm w w'; cases this
    | dots hd hn' w' => rfl
    | dotsRoot hd hn' w' => rw [hcs] at w; have := Walk.det hc hp h hm w w'; injection this with this; exact absurd this h2
    | root => simp at hcs
  | dotsRoot hd hn w =>
    cases w' with
    | name hn' w' => obtain ⟨e1, e2⟩ := List.append_inj' hcs rfl; injection e2 with e2; subst e2; exact absurd ⟨hd, hn⟩ hn'
    | error hn' w' => obtain ⟨e1, e2⟩ := List.append_inj' hcs rfl; injection e2 with e2; subst e2; exact absurd ⟨hd, hn⟩ hn'
    | dotsError hd hn' w' => rw [hcs] at w; have := Walk.det hc hp h hm w w'; cases this
    | dots hd hn' w' h2 => rw [hcs] at w; have := Walk.det hc hp h hm w w'; injection this with this; exact absurd this.symm h2
    | dotsRoot hd hn' w' => rfl
    | root => simp at hcs
  | root h2 =>
    cases w' with
    | root => rfl
    | name => simp at hcs
    | error => simp at hcs
    | dotsError => simp at hcs
    | dots => simp at hcs
    | dotsRoot => simp at hcs

end
end RedFs

namespace RedFs.Posix
open M Str Path Spec

variable {pc : PConf} {s s' s1 s2 : PSt} {t : Nat}

theorem matches_take {sep : Byte} {p path : List Byte} (h : Matches sep p path) : p = path.take p.length := by
  rcases h with rfl | rfl | ⟨r, rfl⟩
  · rfl
  · simp
  · simp

/-- At most one volume is selected. -/
theorem Selected.uniq (hc : pc.Ok) {path : List Byte} {i j : Nat} (h : Selected pc path i) (h' : Selected pc path j) : i = j := by
  have hl : (pc.pre i).length = (pc.pre j).length := Nat.le_antisymm (h'.2.2 i h.1 h.2.1) (h.2.2 j h'.1 h'.2.1)
  refine hc.distinct i j h.1 h'.1 ?_
  rw [matches_take h.2.1, matches_take h'.2.1, hl]

theorem VolName.uniq (hc : pc.Ok) {path : List Byte} {i j : Nat} (h : VolName pc path i) (h' : VolName pc path j) : i = j := h.1.uniq hc h'.1

theorem SlotOf.uniq (hi : PInv pc s) (hin : s.inited = true) (ht : t ≠ 0) {i j : Nat} (h : SlotOf pc t s i) (h' : SlotOf pc t s j) : i = j := by
  have a := h.1; have b := h'.1
  rcases h.2 with e | e
  · omega
  · rcases h'.2 with e' | e'
    · omega
    · exact hi.task hin i j a b (e.trans e'.symm) (by rw [e]; exact ht)

section
variable (hc : pc.Ok) (hi : PInv pc s) (hin : s.inited = true) (ht : t ≠ 0)
include hc hi hin ht

theorem StartAt.det {path : List Byte} {r r' : Except Err (Nat × Nat × List Byte)} (h : StartAt pc s t path r) (h' : StartAt pc s t path r') : r = r' := by
  cases h with
  | cwd hc1 h1 h2 h3 hs =>
    cases h' with
    | cwd _ _ _ _ hs' => rw [hs.uniq hi hin ht hs']
    | abs ha => rcases ha hc1 h1 with e | e <;> contradiction
    | none_ _ ha => rcases ha hc1 with e | e <;> contradiction
  | abs ha hS =>
    cases h' with
    | cwd hc1 h1 h2 h3 hs => rcases ha hc1 h1 with e | e <;> contradiction
    | abs _ hS' => rw [hS.uniq hc hS']
    | none_ hn _ => exact absurd hS.2.1 (hn _ hS.1)
  | none_ hn ha =>
    cases h' with
    | cwd hc1 h1 h2 h3 hs => rcases ha hc1 with e | e <;> contradiction
    | abs _ hS' => exact absurd hS'.2.1 (hn _ hS'.1)
    | none_ => rfl

theorem StartAt.vol_lt {path l : List Byte} {vol start : Nat} (h : StartAt pc s t path (.ok (vol, start, l))) : vol < pc.n := by
  cases h with
  | cwd hc1 h1 h2 h3 hs => exact (hi.slot hin hc1 _ hs.1).vol
  | abs ha hS => exact hS.1

theorem Finds.det {path : List Byte} {r r' : Except Err (Nat × Nat)} (h : Finds pc s t path r) (h' : Finds pc s t path r') : r = r' := by
  cases h with
  | start h =>
    cases h' with
    | start h' => have := h.det hc hi hin ht h'; injection this with this; rw [this]
    | off h' => have := h.det hc hi hin ht h'; cases this
    | error h' => have := h.det hc hi hin ht h'; cases this
    | ok h' => have := h.det hc hi hin ht h'; cases this
  | off h hm =>
    cases h' with
    | start h' => have := h.det hc hi hin ht h'; cases this
    | off h' => rfl
    | error h' hm' => have := h.det hc hi hin ht h'; cases this; rw [hm] at hm'; cases hm'
    | ok h' hm' => have := h.det hc hi hin ht h'; cases this; rw [hm] at hm'; cases hm'
  | error h hm w =>
    have hv := h.vol_lt hc hi hin ht
    cases h' with
    | start h' => have := h.det hc hi hin ht h'; cases this
    | off h' hm' => have := h.det hc hi hin ht h'; cases this; rw [hm] at hm'; cases hm'
    | error h' hm' w' =>
      have := h.det hc hi hin ht h'; cases this
      have := Walk.det (hc.sys _ hv) (hc.posix _ hv) (hi.reach _ hv) hm w w'; injection this with this; rw [this]
    | ok h' hm' w' =>
      have := h.det hc hi hin ht h'; cases this
      have := Walk.det (hc.sys _ hv) (hc.posix _ hv) (hi.reach _ hv) hm w w'; cases this
  | ok h hm w =>
    have hv := h.vol_lt hc hi hin ht
    cases h' with
    | start h' => have := h.det hc hi hin ht h'; cases this
    | off h' hm' => have := h.det hc hi hin ht h'; cases this; rw [hm] at hm'; cases hm'
    | error h' hm' w' =>
      have := h.det hc hi hin ht h'; cases this
      have := Walk.det (hc.sys _ hv) (hc.posix _ hv) (hi.reach _ hv) hm w w'; cases this
    | ok h' hm' w' =>
      have := h.det hc hi hin ht h'; cases this
      have := Walk.det (hc.sys _ hv) (hc.posix _ hv) (hi.reach _ hv) hm w w'; injection this with this; rw [this]

/-- A path has one meaning, except that if the volume is not mounted there may be two error codes. -/
theorem Names.det {path : List Byte} {re : Err} {x : Nat × Nat × List Byte} {r' : Except Err (Nat × Nat × List Byte)} (h : Names pc s t path re (.ok x)) (h' : Names pc s t path re r') : .ok x = r' := by
  cases h with
  | ok h hm w =>
    have hv := h.vol_lt hc hi hin ht
    cases h' with
    | start h' => have := h.det hc hi hin ht h'; cases this
    | off h' hm' => have := h.det hc hi hin ht h'; cases this; rw [hm] at hm'; cases hm'
    | error h' hm' w' =>
      have := h.det hc hi hin ht h'; cases this
      have := ToName.det (hc.sys _ hv) (hc.posix _ hv) (hi.reach _ hv) hm w w'; cases this
    | ok h' hm' w' =>
      have := h.det hc hi hin ht h'; cases this
      have := ToName.det (hc.sys _ hv) (hc.posix _ hv) (hi.reach _ hv) hm w w'; injection this with this; rw [this]

theorem Names.at {path : List Byte} {re : Err} {vol p : Nat} {nm : List Byte} (h : Names pc s t path re (.ok (vol, p, nm))) : vol < pc.n ∧ (s.vols vol).mounted = true := by
  cases h with
  | ok h hm w => exact ⟨h.vol_lt hc hi hin ht, hm⟩

theorem Finds.at {path : List Byte} {vol i : Nat} (h : Finds pc s t path (.ok (vol, i))) : vol < pc.n ∧ (s.vols vol).mounted = true := by
  cases h with
  | ok h hm w => exact ⟨h.vol_lt hc hi hin ht, hm⟩

end

/-- What a call does, in a system that runs and has a slot for the task. -/
theorem call_ctx (hc : pc.Ok) (h : PReach pc s) {k : PCall} (hp : Permitted pc t k s) (hni : k ≠ .init) (hin : s.inited = true) (hb : ¬ k.Bad) (hs : ¬ NoSlot pc t s) :
    ∃ s1 s2, Registers pc t s s1 ∧ PInv pc s1 ∧ Alike s s1 ∧ BodyDoes pc t k s1 (pexec pc t k s).1 s2 ∧ Alike s2 (pexec pc t k s).2 := by
  obtain ⟨s1, R⟩ : ∃ s1, Registers pc t s s1 := by
    rcases taskRegister_spec pc t s hc.tasks with ⟨h, _⟩ | ⟨_, s1, _, R, _⟩
    · exact absurd h hs
    · exact ⟨s1, R⟩
  obtain ⟨s2, d, a2⟩ := call_body hc h hp hni hin hb R
  exact ⟨s1, s2, R, R.inv (h.inv hc) hp.1, R.alike, d, a2⟩

end RedFs.Posix
