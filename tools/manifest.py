import json,re
P='Pico.Props.'
claims=[]
def c(pid,status,thms,note=''):
    claims.append(dict(property=pid,status=status,theorems=[P+t for t in thms],note=note))
exec(open('/verif/tools/claims.py').read())
ids=[json.loads(l)['id'] for l in open('/verif/properties.jsonl')]
claims.sort(key=lambda x:ids.index(x['property']))
json.dump({'claims':claims},open('/verif/MANIFEST.json','w'),indent=1)
mods=[l.split()[1] for l in open('/verif/lean/Verif.lean') if l.startswith('import') and 'Axioms' not in l]
out=''.join(f'import {m}\n' for m in mods)+'\n/-! # Axioms each claimed theorem depends on (printed during the build) -/\n\n'
for x in claims:
    out+=f'-- {x["property"]} ({x["status"]})\n'
    for t in x['theorems']: out+=f'#print axioms {t}\n'
open('/verif/lean/Verif/Axioms.lean','w').write(out)
missing=[i for i in ids if i not in [x['property'] for x in claims]]
print('missing',missing)
