#!/usr/bin/env python3
"""Regenerate MANIFEST.json from the theorem names in lean/Verif/**/Props*.lean and tools/notes.json."""
import re, json, glob, os
root=os.path.dirname(os.path.dirname(os.path.abspath(__file__)))
notes=json.load(open(root+'/tools/notes.json'))
thms={}
for f in sorted(glob.glob(root+'/lean/Verif/**/*.lean',recursive=True)):
    ns=[]
    for l in open(f):
        m=re.match(r'namespace (\S+)',l)
        if m: ns.append(m.group(1))
        m=re.match(r'end (\S+)',l)
        if m and ns and ns[-1]==m.group(1): ns.pop()
        m=re.match(r'(?:protected )?theorem ((C\d+)_\S+)',l)
        if m: thms.setdefault(m.group(2),[]).append('.'.join(ns+[m.group(1)]))
claims=[]
for l in open(root+'/properties.jsonl'):
    p=json.loads(l)['id']
    t=thms.get(p,[])
    n=notes.get(p,{})
    st=n.get('status')
    if st is None:
        st='partial' if any(x.endswith('_partial') or x.endswith('_refuted') for x in t) or not t else 'proved'
    claims.append({'property':p,'status':st,'theorems':t,'note':n.get('note','' if t else 'not yet modelled')})
json.dump({'claims':claims},open(root+'/MANIFEST.json','w'),indent=1,ensure_ascii=False)
print({s:sum(c['status']==s for c in claims) for s in ('proved','partial','not_applicable')}, 'empty:',[c['property'] for c in claims if not c['theorems']])
