import Verif.Model.Vol
namespace RedFs
namespace Vol
variable (v : Vol) (b i : Nat) (x : Blk) (m : Metaroot)

@[simp] theorem write_blk : (v.write b x).blk i = if i = b then x else v.blk i := rfl
@[simp] theorem write_dirty : (v.write b x).dirty i = if i = b then true else v.dirty i := rfl
@[simp] theorem write_base : (v.write b x).base = v.base := rfl
@[simp] theorem write_stale : (v.write b x).stale = v.stale := rfl
@[simp] theorem write_mr : (v.write b x).mr = v.mr := rfl
@[simp] theorem write_cur : (v.write b x).cur = v.cur := rfl
@[simp] theorem write_work : (v.write b x).work = v.work := rfl
@[simp] theorem write_comm : (v.write b x).comm = v.comm := rfl
@[simp] theorem poke_blk : (v.poke b x).blk i = if i = b then x else v.blk i := rfl
@[simp] theorem poke_dirty : (v.poke b x).dirty = v.dirty := rfl
@[simp] theorem poke_base : (v.poke b x).base = v.base := rfl
@[simp] theorem poke_stale : (v.poke b x).stale = v.stale := rfl
@[simp] theorem poke_mr : (v.poke b x).mr = v.mr := rfl
@[simp] theorem poke_cur : (v.poke b x).cur = v.cur := rfl
@[simp] theorem poke_work : (v.poke b x).work = v.work := rfl
@[simp] theorem poke_comm : (v.poke b x).comm = v.comm := rfl
@[simp] theorem markDirty_blk : (v.markDirty b).blk i = v.blk i := by
  unfold markDirty; rw [write_blk]; split <;> simp_all
@[simp] theorem markDirty_dirty : (v.markDirty b).dirty i = if i = b then true else v.dirty i := rfl
@[simp] theorem markDirty_base : (v.markDirty b).base = v.base := rfl
@[simp] theorem markDirty_stale : (v.markDirty b).stale = v.stale := rfl
@[simp] theorem markDirty_mr : (v.markDirty b).mr = v.mr := rfl
@[simp] theorem markDirty_cur : (v.markDirty b).cur = v.cur := rfl
@[simp] theorem markDirty_work : (v.markDirty b).work = v.work := rfl
@[simp] theorem markDirty_comm : (v.markDirty b).comm = v.comm := rfl
@[simp] theorem discard_blk : (v.discard b).blk i = if i = b then v.onDisk b else v.blk i := rfl
@[simp] theorem discard_dirty : (v.discard b).dirty = v.dirty := rfl
@[simp] theorem discard_base : (v.discard b).base = v.base := rfl
@[simp] theorem discard_stale : (v.discard b).stale = v.stale := rfl
@[simp] theorem discard_mr : (v.discard b).mr = v.mr := rfl
@[simp] theorem discard_cur : (v.discard b).cur = v.cur := rfl
@[simp] theorem discard_work : (v.discard b).work = v.work := rfl
@[simp] theorem discard_comm : (v.discard b).comm = v.comm := rfl
theorem onDisk_clean (h : v.dirty b = false) : v.onDisk b = v.base b := by
  unfold onDisk; simp [h]
theorem branchBuf_blk (src dst : Nat) (h : src ≠ dst) :
    (v.branchBuf src dst).blk i =
      if i = src then v.onDisk src else if i = dst then v.blk src else v.blk i := by
  unfold branchBuf
  rw [discard_blk]
  split
  · unfold onDisk; simp [h]
  · rfl
@[simp] theorem branchBuf_dirty (src dst : Nat) :
    (v.branchBuf src dst).dirty i = if i = dst then true else v.dirty i := rfl
@[simp] theorem branchBuf_base (src dst : Nat) : (v.branchBuf src dst).base = v.base := rfl
@[simp] theorem branchBuf_stale (src dst : Nat) : (v.branchBuf src dst).stale = v.stale := rfl
@[simp] theorem branchBuf_mr (src dst : Nat) : (v.branchBuf src dst).mr = v.mr := rfl
@[simp] theorem branchBuf_cur (src dst : Nat) : (v.branchBuf src dst).cur = v.cur := rfl
@[simp] theorem branchBuf_work (src dst : Nat) : (v.branchBuf src dst).work = v.work := rfl
@[simp] theorem branchBuf_comm (src dst : Nat) : (v.branchBuf src dst).comm = v.comm := rfl

@[simp] theorem setWork_work : (v.setWork m).work = m := by simp [setWork, work]
@[simp] theorem setWork_comm : (v.setWork m).comm = v.comm := by simp [setWork, comm]
@[simp] theorem setWork_cur : (v.setWork m).cur = v.cur := rfl
@[simp] theorem setWork_blk : (v.setWork m).blk = v.blk := rfl
@[simp] theorem setWork_dirty : (v.setWork m).dirty = v.dirty := rfl
@[simp] theorem setWork_base : (v.setWork m).base = v.base := rfl
@[simp] theorem setWork_stale : (v.setWork m).stale = v.stale := rfl
@[simp] theorem setWork_onDisk : (v.setWork m).onDisk b = v.onDisk b := rfl
@[simp] theorem discard_onDisk : (v.discard b).onDisk i = v.onDisk i := rfl
end Vol
end RedFs
