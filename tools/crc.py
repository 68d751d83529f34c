import re
s=open('/repo/util/crc.c').read().split('\n')
def tab(a,b):
    r=[]
    for l in s[a-1:b]:
        r+=re.findall(r'0x([0-9A-F]{8})U',l)
    return r
# find ranges
idx=[i+1 for i,l in enumerate(s) if 'aulCrc32Table[] =' in l]
print(idx)
end=[i+1 for i,l in enumerate(s) if l.strip()=='};']
print(end)
t1=tab(idx[0],end[0]); t2=tab(idx[1],end[1])
print(len(t1),len(t2))
def fmt(t,n): 
    return ',\n  '.join(', '.join('0x'+x+'#32' for x in t[i:i+n]) for i in range(0,len(t),n))
o='''/-
Tables of `util/crc.c`, copied mechanically from the C source.
-/
namespace RedFs.Crc

/-- `aulCrc32Table` of the Sarwate build, util/crc.c:%d-%d. -/
def tableSarwate : Array (BitVec 32) := #[
  %s]

set_option maxRecDepth 20000 in
/-- `aulCrc32Table` of the slice-by-8 build, util/crc.c:%d-%d.  The eight
sub-tables are interleaved: entry `8*x+k` is sub-table `k` at byte `x`. -/
def tableSlice8 : Array (BitVec 32) := #[
  %s]

end RedFs.Crc
'''%(idx[0],end[0],fmt(t1,8),idx[1],end[1],fmt(t2,8))
open('/verif/lean/Verif/Model/CrcTables.lean','w').write(o)
