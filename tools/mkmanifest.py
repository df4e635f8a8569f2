#!/usr/bin/env python3
"""Regenerates MANIFEST.json from tools/claims.txt.
Line format:  ID | status | theorem theorem ... | note"""
import json,os
here=os.path.dirname(os.path.abspath(__file__))
claims=[]
for line in open(os.path.join(here,'claims.txt')):
    line=line.rstrip('\n')
    if not line.strip() or line.startswith('#'): continue
    a=[x.strip() for x in line.split('|')]
    claims.append(dict(property=a[0],status=a[1],theorems=a[2].split(),note=a[3] if len(a)>3 else ''))
json.dump({"claims":claims},open(os.path.join(here,'..','MANIFEST.json'),'w'),indent=1)
print(len(claims),"claims")
