import Verif.Props.Names
import Verif.Spec.Posix
set_option linter.unusedSimpArgs false
set_option linter.unusedVariables false
set_option linter.unusedSectionVars false
/-!
The calls of the core, with typed results.
-/
namespace RedFs
open M Vol Spec Props.System Props.Account

variable {c : Conf} {v v' v'' : Vol}

theorem Same.refl (c : Conf) (v : Vol) : Same c v v := ⟨id, rfl, rfl, rfl, fun _ => rfl, fun _ => rfl, fun _ => rfl⟩
theorem Same.trans (h : Same c v v') (h' : Same c v' v'') : Same c v v'' :=
  ⟨h'.reach ∘ h.reach, h'.mounted.trans h.mounted, h'.ro.trans h.ro, h'.mask.trans h.mask,
    fun hm => (h'.files (h.mounted.trans hm)).trans (h.files hm), fun hm => (h'.disk (h.mounted.trans hm)).trans (h.disk hm),
    fun hm => (h'.off (h.mounted.trans hm)).trans (h.off hm)⟩

theorem map_inj {α : Type} {f : α → Reply} (hf : ∀ a b, f a = f b → a = b) {r r' : Except Err α} (h : r.map f = r'.map f) : r = r' := by
  cases r <;> cases r' <;> simp only [Except.map] at h
  · injection h with h; rw [h]
  · cases h
  · cases h
  · injection h with h; rw [hf _ _ h]

/-- A call that only asks, on a mounted volume. -/
theorem typed_ask (hc : c.SysOk) (h : Reach c v) (hm : v.mounted = true) {k : Call} (hk : k.Ok c) {α : Type} {f : α → Reply} (hf : ∀ a b, f a = f b → a = b)
    {m : VM α} (hx : exec c k = reply f m) {Q : Files → Except Err α → Prop}
    (hd : ∀ s r s' tr, Does c k s r s' tr → Ask (ViaQ f Q) s r s' tr) : Same c v (m v).2 ∧ Q (files c v) (m v).1 := by
  have e0 : exec c k v = ((m v).1.map f, (m v).2) := by rw [hx]; exact reply_run (Prod.mk.eta ..).symm
  obtain ⟨r', v'', s', tr, e', d, a, _⟩ := exec_sim hc (Reach.sysOf hc h hm) hk
  have hr := h.call hk e0
  rw [e0] at e'; obtain ⟨rfl, rfl⟩ := Prod.mk.inj e'
  obtain ⟨d1, _, d2⟩ := hd _ _ _ _ d
  rw [if_neg (show ¬ (sysOf c v).mounted = false from fun h => by cases h)] at d2
  subst d1
  obtain ⟨a1, a2, a3, a4, a5⟩ := a.inv rfl
  obtain ⟨r0, h1, h2⟩ := d2
  rw [← map_inj hf h1] at h2
  refine ⟨⟨fun _ => hr, a1.mounted.trans hm.symm, a4.symm, a5.symm, fun _ => a2.symm, fun _ => ?_, fun h => by rw [hm] at h; cases h⟩, h2⟩
  exact (Option.some.inj a3).symm

/-- The result of a call that modifies files, on a mounted volume. -/
structure Mod (c : Conf) {α : Type} (ev : Event) (R : Files → Except Err α → Files → Prop) (v : Vol) (r : Except Err α) (v' : Vol) : Prop where
  reach : Reach c v'
  mounted : v'.mounted = true
  ro : v'.readOnly = v.readOnly
  mask : v'.transMask = v.transMask
  rel : (v.readOnly = true ∧ r = .error .erofs ∧ files c v' = files c v) ∨ (v.readOnly = false ∧ R (files c v) r (files c v'))

theorem typed_mod (hc : c.SysOk) (h : Reach c v) (hm : v.mounted = true) {k : Call} (hk : k.Ok c) {α : Type} {f : α → Reply} (hf : ∀ a b, f a = f b → a = b)
    {m : VM α} (hx : exec c k = reply f m) {ev : Event} {R : Files → Except Err α → Files → Prop}
    (hd : ∀ s r s' tr, Does c k s r s' tr → Modify ev (Via f R) s r s' tr) : Mod c ev R v (m v).1 (m v).2 := by
  have e0 : exec c k v = ((m v).1.map f, (m v).2) := by rw [hx]; exact reply_run (Prod.mk.eta ..).symm
  obtain ⟨r', v'', s', tr, e', d, a, _⟩ := exec_sim hc (Reach.sysOf hc h hm) hk
  have hr := h.call hk e0
  rw [e0] at e'; obtain ⟨rfl, rfl⟩ := Prod.mk.inj e'
  have d := hd _ _ _ _ d
  unfold Modify at d
  rw [if_neg (show ¬ (sysOf c v).mounted = false from fun h => by cases h)] at d
  cases hro : v.readOnly
  · rw [if_neg (show ¬ (sysOf c v).ro = true by show ¬ v.readOnly = true; rw [hro]; simp)] at d
    obtain ⟨pre, F, _, h2, _, h4⟩ := d
    obtain ⟨r0, h5, h6⟩ := h2
    rw [← map_inj hf h5] at h6
    subst h4
    obtain ⟨a1, a2, a3, a4, a5⟩ := a.inv rfl
    exact ⟨hr, a1.mounted, by rw [← a4]; rfl, by rw [← a5]; rfl, Or.inr ⟨hro, by rw [← a2]; exact h6⟩⟩
  · rw [if_pos (show (sysOf c v).ro = true from hro)] at d
    obtain ⟨d1, d2, _⟩ := d
    subst d2
    obtain ⟨a1, a2, a3, a4, a5⟩ := a.inv rfl
    exact ⟨hr, a1.mounted, by rw [← a4]; rfl, by rw [← a5]; rfl, Or.inl ⟨hro, map_inj hf (d1.trans rfl), a2.symm⟩⟩

theorem num_inj (a b : Nat) (h : Reply.num a = .num b) : a = b := by injection h
theorem unit_inj (a b : Unit) (h : (fun _ : Unit => Reply.unit) a = (fun _ => .unit) b) : a = b := rfl

theorem modifyingOp_off {α : Type} {ev : Event} {m : VM α} (h : v.mounted = false) : modifyingOp ev m v = (.error .einval, v) := by
  unfold modifyingOp; exact whenRw_off h

section
variable (hc : c.SysOk) (hp : c.posix = true)
include hc hp

theorem lookup_typed (h : Reach c v) (hm : v.mounted = true) (p : Nat) {name : List Byte} (hn : Str.CStr.Ok name) :
    Same c v (coreLookup c p name v).2 ∧ Lookup c p (nameOf c name) (files c v) (coreLookup c p name v).1 :=
  typed_ask hc h hm (k := .lookup p name) ⟨hp, hn⟩ num_inj rfl (fun _ _ _ _ h => h)
theorem stat_typed (h : Reach c v) (hm : v.mounted = true) (i : Nat) :
    Same c v (coreStat c i v).2 ∧ Spec.Stat i (files c v) (coreStat c i v).1 :=
  typed_ask hc h hm (k := .stat i) trivial (fun a b h => by injection h) rfl (fun _ _ _ _ h => h)
theorem dirParent_typed (h : Reach c v) (hm : v.mounted = true) (i : Nat) :
    Same c v (coreDirParent c i v).2 ∧ DirParent i (files c v) (coreDirParent c i v).1 :=
  typed_ask hc h hm (k := .dirParent i) hp num_inj rfl (fun _ _ _ _ h => h)
theorem dirRead_typed (h : Reach c v) (hm : v.mounted = true) (i pos : Nat) :
    Same c v (coreDirRead c i pos v).2 ∧ DirRead c i pos (files c v) (coreDirRead c i pos v).1 :=
  typed_ask hc h hm (k := .dirRead i pos) hp (fun a b h => by injection h with h1 h2; exact Prod.ext h1 h2) rfl (fun _ _ _ _ h => h)
theorem read_typed (h : Reach c v) (hm : v.mounted = true) (i start len : Nat) :
    Same c v (coreFileRead c i start len v).2 ∧ Read i start len (files c v) (coreFileRead c i start len v).1 :=
  typed_ask hc h hm (k := .read i start len) trivial (fun a b h => by injection h) rfl (fun _ _ _ _ h => h)

theorem create_typed (h : Reach c v) (hm : v.mounted = true) (p : Nat) {name : List Byte} (hn : Str.CStr.Ok name) (isDir : Bool) :
    Mod c (if isDir then .mkdir else .creat) (Create c p (nameOf c name) isDir) v (coreCreate c p name isDir v).1 (coreCreate c p name isDir v).2 :=
  typed_mod hc h hm (k := .create p name isDir) ⟨hp, hn⟩ num_inj rfl (fun _ _ _ _ h => h)
theorem link_typed (h : Reach c v) (hm : v.mounted = true) (p : Nat) {name : List Byte} (hn : Str.CStr.Ok name) (i : Nat) :
    Mod c .link (Link c p (nameOf c name) i) v (coreLink c p name i v).1 (coreLink c p name i v).2 :=
  typed_mod hc h hm (k := .link p name i) ⟨hp, hn⟩ unit_inj rfl (fun _ _ _ _ h => h)
theorem unlink_typed (h : Reach c v) (hm : v.mounted = true) (p : Nat) {name : List Byte} (hn : Str.CStr.Ok name) :
    Mod c .unlink (Unlink c p (nameOf c name)) v (coreUnlink c p name v).1 (coreUnlink c p name v).2 :=
  typed_mod hc h hm (k := .unlink p name) ⟨hp, hn⟩ unit_inj rfl (fun _ _ _ _ h => h)
theorem rename_typed (h : Reach c v) (hm : v.mounted = true) (p p' : Nat) {name name' : List Byte} (hn : Str.CStr.Ok name) (hn' : Str.CStr.Ok name') :
    Mod c .rename (Rename c p (nameOf c name) p' (nameOf c name')) v (coreRename c p name p' name' v).1 (coreRename c p name p' name' v).2 :=
  typed_mod hc h hm (k := .rename p name p' name') ⟨hp, hn, hn'⟩ unit_inj rfl (fun _ _ _ _ h => h)
theorem write_typed (h : Reach c v) (hm : v.mounted = true) (i start len : Nat) (buf : Nat → Byte) :
    Mod c .write (Write c i start len buf) v (coreFileWrite c i start len buf v).1 (coreFileWrite c i start len buf v).2 :=
  typed_mod hc h hm (k := .write i start len buf) trivial num_inj rfl (fun _ _ _ _ h => h)
theorem truncate_typed (h : Reach c v) (hm : v.mounted = true) (i size : Nat) :
    Mod c .truncate (Truncate c i size) v (coreFileTruncate c i size v).1 (coreFileTruncate c i size v).2 :=
  typed_mod hc h hm (k := .truncate i size) trivial unit_inj rfl (fun _ _ _ _ h => h)
end

end RedFs
