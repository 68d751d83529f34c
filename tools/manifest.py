import json
C={}
def c(p,s,t,n): C[p]=dict(property=p,status=s,theorems=t,note=n)
exec(open('/tmp/gen/claims.py').read())
json.dump({"claims":[C[k] for k in sorted(C)]},open('/verif/MANIFEST.json','w'),indent=1)
