#!/usr/bin/env python3
"""Generates lean/Verif/Model/RuleNames.lean from /repo: the names of `allRules` in main.go, in order."""
import re,glob
main=open('/repo/cmd/tsgolint/main.go').read()
body=main[main.index('var allRules = []rule.Rule{'):]; body=body[:body.index('\n}')]
first=main[:main.index('var allRules')].count('\n')+1; last=first+body.count('\n')+1
out=[]
for pkg,var in re.findall(r'\t(\w+)\.(\w+),',body):
    for f in glob.glob('/repo/internal/rules/%s/*.go'%pkg):
        s=open(f).read()
        m=re.search(r'var '+var+r'\b[^{]*\{\s*Name:\s*([^,]+),',s)
        if m:
            n=m.group(1)
            if not n.startswith('"'):
                n=re.search(n+r'\s*=\s*("[^"]*")',s).group(1)
            out.append(n); break
    else: raise SystemExit('no name for '+pkg)
lines=['/-!','# The names of the rules (generated by tools/gen_rules.py)','-/','namespace Tsgolint.Cli','',
 '/-- /repo/cmd/tsgolint/main.go:%d-%d `allRules`: the names (`Name:` in the rules\' packages), in that order -/'%(first,last),'def ruleNames : List String := [']
lines.append(',\n'.join('  '+n for n in out)+']'); lines+=['','end Tsgolint.Cli','']
open('/verif/lean/Verif/Model/RuleNames.lean','w').write('\n'.join(lines))
print(len(out))
