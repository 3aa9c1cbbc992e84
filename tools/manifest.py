#!/usr/bin/env python3
"""Generate /verif/MANIFEST.json from the table below; checks that each property exists and that every listed theorem
name appears in some Lean file."""
import json, re, glob
P='Hyperreal.Props.'
M = {
 'C01': ('proved', ['bstm_exact_topK','topK_unique'], ''),
 'C02': ('proved', ['compute_bitslice_counts'], ''),
 'C03': ('proved', ['weight_bitslice_exact','weight_compute_roundtrip'], ''),
 'C05': ('partial', ['expand_window_partial','expand_window_exact','expand_window_leaks','expand_window_zero'],
   'The stated property is false of the code (expand_window_leaks: the first position of the next document leaks in); the exact behaviour is proved.'),
}
exec(open('/verif/tools/manifest_more.py').read()) if glob.glob('/verif/tools/manifest_more.py') else None
ids=[json.loads(l)['id'] for l in open('/verif/properties.jsonl')]
src='\n'.join(open(f).read() for f in glob.glob('/verif/lean/Verif/**/*.lean',recursive=True))
claims=[]
for i in ids:
    if i not in M:
        print('missing',i); continue
    st,th,note=M[i]
    for t in th:
        if not re.search(r'theorem\s+'+re.escape(t)+r'\b',src): print('NO THEOREM',i,t)
    claims.append({'property':i,'status':st,'theorems':[P+t for t in th],'note':note})
json.dump({'claims':claims},open('/verif/MANIFEST.json','w'),indent=1)
print(len(claims),'claims')
