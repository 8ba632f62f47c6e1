"""Generates MANIFEST.json from the theorem names found in lean/Verif/Props and the notes below."""
import json,re,glob,os
root=os.path.join(os.path.dirname(__file__),'..')
names={}
for f in sorted(glob.glob(root+'/lean/Verif/Props/*.lean')):
    for m in re.finditer(r'^theorem (C\d{2,3})_(\w+)',open(f).read(),re.M):
        names.setdefault(m.group(1),[]).append('Axon.'+m.group(1)+'_'+m.group(2))
exec(open(os.path.join(os.path.dirname(__file__),'notes.py')).read())   # NOTES, STATUS
claims=[]
for l in open(root+'/properties.jsonl'):
    i=json.loads(l)['id']
    th=names.get(i,[])
    st=STATUS.get(i) or ('proved' if th and not any(t.endswith('_partial') for t in th) else ('partial' if th else None))
    if st is None: print('no theorem for',i); continue
    claims.append(dict(property=i,status=st,theorems=th,note=NOTES.get(i,'')))
json.dump({"claims":claims},open(root+'/MANIFEST.json','w'),indent=1)
print(len(claims),'claims',sum(len(c['theorems']) for c in claims),'theorems')
