"""Writes lean/Verif/Model/OptionTables.lean from /repo/internal/rules/*/options.go (code) and lean/Verif/Spec/OptionDocs.lean from the
schema.json files (documentation)."""
import re,glob,json,os
R='/repo/internal/rules'
def lq(s): return json.dumps(s)
def kind(t):
    return {'bool':'.bool','string':'.str','*string':'.strPtr','[]string':'.strs','[]utils.TypeOrValueSpecifier':'.specs','interface{}':'.any'}.get(t)
def val(expr):
    e=' '.join(expr.split())
    if e in('true','false'): return f'.bool {e}'
    if re.fullmatch(r'"[^"]*"',e): return f'.str {e}'
    if e.startswith('[]string{'):
        return '.strs ['+', '.join(re.findall(r'"[^"]*"',e))+']'
    if e.startswith('[]utils.TypeOrValueSpecifier{'):
        body=e[len('[]utils.TypeOrValueSpecifier{'):-1].strip()
        out=[]
        for m in re.finditer(r'\{ From: utils\.TypeOrValueSpecifierFrom(\w+), Name: \[\]string\{([^}]*)\}, \}',body):
            out.append(f'⟨.{m[1].lower()}, [{m[2]}], "", ""⟩')
        if not out and body: raise Exception(body)
        return '.specs ['+', '.join(out)+']'
    raise Exception(e)
structs={} # name -> (file,line0,line1,fields)
order=[]
for f in sorted(glob.glob(R+'/*/options.go')):
    src=open(f).read(); rule=f.split('/')[-2]
    for m in re.finditer(r'type (\w+) struct \{\n(.*?)\n\}',src,re.S):
        name=m[1]
        fields=[(a,b,c) for a,b,c in re.findall(r'^\t(\w+) (\S+) `json:"(\w+)',m[2],re.M)]
        um=re.search(r'func \(j \*'+name+r'\) UnmarshalJSON.*?\n\}\n',src,re.S)
        defs={}
        l0=src[:m.start()].count('\n')+1; l1=src[:m.end()].count('\n')+1
        if um:
            l1=src[:um.end()].count('\n')
            for d in re.finditer(r'if v, ok := raw\["(\w+)"\]; !ok \|\| v == nil \{\n\t\tplain\.(\w+) = (.*?)\n\t\}\n',um[0],re.S):
                defs[d[1]]=(d[2],d[3])
        rows=[]
        for g,t,j in fields:
            d=defs.pop(j,None)
            if d: assert d[0]==g,(f,d,g)
            rows.append((j,t,d[1] if d else None))
        assert not defs,(f,defs)
        structs[name]=(rule,f.replace('/repo/',''),l0,l1,rows); order.append(name)
out=['import Verif.Model.Options','/-!','# The option types of all rules','','Generated by tools/gen_options.py from /repo/internal/rules/*/options.go; each definition names its file and lines.','-/','namespace Tsgolint.Options','']
def lname(n): return n[0].lower()+n[1:]
main=[]
for n in order:
    rule,f,a,b,rows=structs[n]
    out.append(f'/-- /repo/{f}:{a}-{b} `{n}` and its `UnmarshalJSON`. -/')
    out.append(f'def {lname(n)} : Schema := [')
    rs=[]
    for j,t,d in rows:
        k=kind(t)
        if t.startswith('utils.BoolOr['): k=f'(.boolOr (unmarshal {lname(t[13:-1])}))'
        if t.startswith('*Prefer'): k='(.enumPtr ["always", "never"])'
        assert k,(n,j,t)
        dd='none' if d is None else f'(some ({val(d)}))'
        if k=='.any' and d is not None: dd=f'(some (.any (some ({val(d)}))))'
        rs.append(f'  ⟨{lq(j)}, {k}, {dd}⟩')
    out.append(',\n'.join(rs)+']'); out.append('')
    main.append((rule,n))
out.append('/-- The option types of the rules, by directory of the rule. (`return_await` is an enumeration, see `returnAwait`.) -/')
out.append('def ruleOptions : List (String × String × Schema) := [')
out.append(',\n'.join(f'  ({lq(r)}, {lq(n)}, {lname(n)})' for r,n in main)+']')
out.append(''); out.append('end Tsgolint.Options')
open('/verif/lean/Verif/Model/OptionTables.lean','w').write('\n'.join(out)+'\n')
# documentation
docs=[]
def jv(v):
    if v is True: return '.bool true'
    if v is False: return '.bool false'
    if isinstance(v,str): return '.str '+lq(v)
    if isinstance(v,list): return '.arr ['+', '.join(jv(x) for x in v)+']'
    if isinstance(v,dict): return '.obj ['+', '.join(f'({lq(k)}, {jv(x)})' for k,x in v.items())+']'
    if isinstance(v,int): return f'.int {v}'
    raise Exception(v)
for n in order:
    rule,f,a,b,rows=structs[n]
    sch=json.load(open(f'{R}/{rule}/schema.json'))
    want=n.lower()
    for k,d in sch['definitions'].items():
        if k.replace('_','').lower()==want:
            ps=[(p,jv(x['default']) if 'default' in x else None) for p,x in d['properties'].items()]
            docs.append((rule,n,k,ps)); break
    else: print('no schema for',n,list(sch['definitions']))
o=['import Verif.Model.Payload','/-!','# The documented defaults of all rule options','','Generated by tools/gen_options.py from the schema.json file of each rule: the "default" of each property.','-/','namespace Tsgolint.Options','open Tsgolint.Payload','']
o.append('/-- (directory of the rule, Go type, [(option, documented default)]). -/')
o.append('def documented : List (String × String × List (String × Option Json)) := [')
o.append(',\n'.join(f'  ({lq(r)}, {lq(n)}, ['+', '.join(f'({lq(p)}, '+('none' if v is None else f'some ({v})')+')' for p,v in ps)+'])' for r,n,k,ps in docs)+']')
o.append(''); o.append('end Tsgolint.Options')
open('/verif/lean/Verif/Spec/OptionDocs.lean','w').write('\n'.join(o)+'\n')
