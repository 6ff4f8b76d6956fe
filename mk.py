#!/usr/bin/env python3
# regenerates lean/Verif.lean (imports) and MANIFEST.json (theorem names found by C-prefix)
import os,re,json
root='lean/Verif'
mods=[]
for d,_,fs in os.walk(root):
    for f in fs:
        if f.endswith('.lean'):
            mods.append(os.path.relpath(os.path.join(d,f),'lean')[:-5].replace('/','.'))
mods.sort()
open('lean/Verif.lean','w').write(''.join(f'import {m}\n' for m in mods))
thms={}
for m in mods:
    s=open('lean/'+m.replace('.','/')+'.lean').read()
    ns=[]
    for line in s.split('\n'):
        a=re.match(r'namespace (\S+)',line)
        if a: ns.append(a.group(1))
        a=re.match(r'end (\S+)',line)
        if a and ns and ns[-1]==a.group(1): ns.pop()
        a=re.match(r'theorem (C\d\d+)_(\S+)',line)
        if a: thms.setdefault(a.group(1),[]).append('.'.join(ns+[f'{a.group(1)}_{a.group(2)}']))
notes=json.load(open('notes.json')) if os.path.exists('notes.json') else {}
props=[json.loads(l) for l in open('properties.jsonl')]
claims=[]
for p in props:
    i=p['id']; t=thms.get(i,[]); n=notes.get(i,{})
    if not t:
        st='partial'; note=n.get('note','model written; no theorem yet')
    else:
        st='partial' if any(x.endswith('_partial') for x in t) else 'proved'
        note=n.get('note','')
    st=n.get('status',st)
    claims.append(dict(property=i,status=st,theorems=t,note=note))
json.dump(dict(claims=claims),open('MANIFEST.json','w'),indent=1,ensure_ascii=False)
print({c['property']:(c['status'],len(c['theorems'])) for c in claims})
