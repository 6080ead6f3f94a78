# builds MANIFEST.json from theorem names: C??_... in Verif/Props; status from /tmp/w/status.json-like dict file
import re,glob,json,os
st=json.load(open('/verif/tools/status.json'))
ths={}
for f in sorted(glob.glob('/verif/lean/Verif/Props/*.lean')):
    s=open(f).read()
    ns='Ethsnarks'
    for m in re.finditer(r'^(?:private )?theorem (C\d\d+)(_[\w\'₀-₉]+)',s,re.M):
        ths.setdefault(m.group(1),[]).append('Ethsnarks.'+m.group(1)+m.group(2))
props=[json.loads(l)['id'] for l in open('/verif/properties.jsonl') if l.strip()]
claims=[]
for p in props:
    e=st.get(p)
    if e is None:
        if p in ths: print('no status for',p)
        claims.append({"property":p,"status":"partial","theorems":ths.get(p,[]),"note":"not proved yet"})
        continue
    claims.append({"property":p,"status":e[0],"theorems":ths.get(p,[]),"note":e[1]})
json.dump({"claims":claims},open('/verif/MANIFEST.json','w'),indent=1,ensure_ascii=False)
print(len(claims), sum(c['status']=='proved' for c in claims))
# audit file
with open('/verif/lean/Verif/Audit.lean','w') as o:
    mods=sorted('Verif.Props.'+os.path.basename(f)[:-5] for f in glob.glob('/verif/lean/Verif/Props/*.lean'))
    o.write(''.join('import %s\n'%m for m in mods))
    o.write('\n/-! Axioms of every property theorem (expected: at most propext, Classical.choice, Quot.sound).\nGenerated by /verif/tools/manifest.py. -/\n\n')
    for p in sorted(ths):
        for t in ths[p]: o.write('#print axioms %s\n'%t)
