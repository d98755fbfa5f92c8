#!/usr/bin/env python3
# Generates ../MANIFEST.json: theorems are collected by name prefix from lean/Verif/Props.
import json, os, re, glob
root=os.path.join(os.path.dirname(os.path.abspath(__file__)),'..')
from notes import STATUS
ths={}
for f in sorted(glob.glob(root+'/lean/Verif/Props/*.lean')):
    ns=[]
    for line in open(f):
        m=re.match(r'\s*namespace\s+(\S+)',line)
        if m: ns.append(m.group(1)); continue
        m=re.match(r'\s*end\s+(\S+)',line)
        if m and ns and ns[-1]==m.group(1): ns.pop(); continue
        m=re.match(r'(?:@\[[^\]]*\]\s*)?theorem\s+(C\d\d+)_(\S+)',line)
        if m: ths.setdefault(m.group(1),[]).append('.'.join(ns+[m.group(1)+'_'+m.group(2)]))
ids=[json.loads(l)['id'] for l in open(root+'/properties.jsonl')]
claims=[]
for i in ids:
    if i not in ths and i not in STATUS: continue
    st,note=STATUS.get(i,('proved',''))
    claims.append(dict(property=i,status=st,theorems=ths.get(i,[]),note=note))
json.dump({"claims":claims},open(root+'/MANIFEST.json','w'),indent=1,ensure_ascii=False)
missing=[i for i in ids if i not in [c['property'] for c in claims]]
print(len(claims),'claims; missing:',missing, 'extra:',[k for k in ths if k not in ids])
