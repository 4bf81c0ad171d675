#!/usr/bin/env python3
"""Writes /verif/DESIGN.md from properties.jsonl, MANIFEST.json, the Lean sources and the notes below."""
import json,re,glob,os
ROOT='/verif'
props=[json.loads(l) for l in open(ROOT+'/properties.jsonl')]
claims={c['property']:c for c in json.load(open(ROOT+'/MANIFEST.json'))['claims']}
where={}
for f in sorted(glob.glob(ROOT+'/lean/Verif/Props/*.lean')):
    for m in re.finditer(r'^theorem\s+(\S+)',open(f).read(),re.M):
        where.setdefault(m.group(1).split('.')[-1],os.path.basename(f)[:-5])
exec(open(ROOT+'/tools/design_notes.py').read())   # HOW, HEAD, NOT, FINDINGS
def modules(c):
    s=[]
    for t in c['theorems']:
        w=where.get(t.split('.')[-1],'?')
        if w not in s: s.append(w)
    return ', '.join('`%s`'%x for x in s)
out=[HEAD]
out.append('## Plan per property\n\nThe middle column names the module group `X`: model in `Model/X`, specification in `Spec/X` (where the statement needs\none), proofs in `Proof/X` or in `Props/X`, theorems in `Props/X`.\n')
out.append('| id | property | modules | how it is modelled and proved |\n|----|----|----|----|')
for p in props:
    c=claims[p['id']]
    note=c['note'].strip()
    how=HOW.get(p['id'],'')
    txt=(how+(' ' if how and note else '')+note).replace('|','\\|')
    out.append('| %s | %s | %s | %s |'%(p['id'],p['title'].replace('|','\\|'),modules(c),txt))
out.append('\nEvery property in the list can be expressed in the model; none is `not_applicable`.\n')
# source files and where they are cited
cite={}
lean={f:open(f).read() for f in glob.glob(ROOT+'/lean/Verif/Model/*.lean')+glob.glob(ROOT+'/lean/Verif/Spec/*.lean')}
go=[]
for d in ('internal','cmd'):
    for r,_,fs in os.walk('/repo/'+d):
        for x in fs:
            if x.endswith('.go') and not x.endswith('_test.go'): go.append(os.path.relpath(os.path.join(r,x),'/repo'))
go.sort()
out.append('## Which source files are modelled\n\n"cited in" lists the model modules whose definitions cite the file. What is left out of a file is said at the definitions\nand summarised under "Not modelled".\n')
out.append('| file | cited in |\n|----|----|')
un=[]
opts=[]
for g in go:
    b=os.path.basename(g); 
    if b=='options.go': opts.append(g); continue
    ms=sorted(os.path.basename(f)[:-5] for f,s in lean.items() if '/Model/' in f and re.search(r'(?<![A-Za-z_])'+re.escape(b),s))
    if ms: out.append('| `%s` | %s |'%(g,', '.join(ms)))
    else: un.append(g)
out.append('| `internal/rules/*/options.go` (%d files) | OptionTables (generated by tools/gen_options.py), Options |'%len(opts))
out.append('\nFiles with no model: '+', '.join('`%s`'%u for u in un)+'.\n')
out.append(NOT)
out.append(FINDINGS)
open(ROOT+'/DESIGN.md','w').write('\n'.join(out)+'\n')
print(len(out),'parts', len(un),'unmodelled')
