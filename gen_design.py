#!/usr/bin/env python3
"""Append the appendix (theorems and their axioms) to DESIGN.md. Needs a built project."""
import json,os,re,subprocess
os.chdir(os.path.dirname(os.path.abspath(__file__)))
m=json.load(open('MANIFEST.json'))
titles={}
for l in open('properties.jsonl'):
    d=json.loads(l); titles[d['id']]=d['title']
ts=[t for c in m['claims'] for t in c['theorems']]
open('/tmp/ax.lean','w').write('import Verif\n'+'\n'.join(f'#print axioms {t}' for t in ts))
out=subprocess.run(['lake','env','lean','/tmp/ax.lean'],cwd='lean',capture_output=True,text=True).stdout
ax={}
for x in re.finditer(r"'([^']+)' depends on axioms: \[([^\]]*)\]",out): ax[x.group(1)]=x.group(2).replace('\n',' ').split(', ')
for x in re.finditer(r"'([^']+)' does not depend",out): ax[x.group(1)]=[]
sh={'propext':'p','Classical.choice':'c','Quot.sound':'q'}
t=open('DESIGN.md').read()
mark='## Appendix: theorems and axioms'
if mark in t: t=t[:t.index(mark)]
t+=mark+'\n\nIn parentheses the axioms: p = `propext`, c = `Classical.choice`, q = `Quot.sound`.\n\n'
for c in m['claims']:
    t+=f"* {c['property']} ({c['status']}) {titles[c['property']]}: "+', '.join('`'+x.split('.')[-1]+'` ('+(''.join(sh[a.strip()] for a in ax[x]) or 'none')+')' for x in c['theorems'])+'\n'
open('DESIGN.md','w').write(t)
