#!/usr/bin/env python3
"""Generates lean/Verif/Declarations/Table.lean from src/properties/mod.rs (define_properties!) and the shorthand macros."""
import re,os,glob
R='/repo/src/properties/'
s=open(R+'mod.rs').read()
i=s.index('define_properties! {')
L0=s[:i].count('\n')+1
body=s[i:]
props=[]
for n,l in enumerate(body.split('\n')):
    m=re.match(r'\s*"([a-z-]+)": (\w+)\((.*)\)(.*),\s*$',l)
    if not m:
        m=re.match(r'\s*"([a-z-]+)": (\w+)\((.*?)\)(.*),\s*$',l)
    if not m: continue
    css,name,ty,rest=m.groups()
    # split type at matching paren
    full=l.strip()
    j=full.index('(');d=0
    for k in range(j,len(full)):
        if full[k]=='(':d+=1
        if full[k]==')':
            d-=1
            if d==0: break
    ty=full[j+1:k];rest=full[k+1:]
    props.append(dict(css=css,name=name,vp='VendorPrefix' in ty,un='unprefixed: false' in rest,
      pre=re.findall(r'/ (\w+)',rest),short='shorthand: true' in rest,
      group=(re.findall(r'logical_group: (\w+)',rest) or [None])[0],cat=(re.findall(r'category: (\w+)',rest) or [None])[0],line=L0+n))
names={p['name'] for p in props}
# duplicates: same CSS name with different enum (mask-box-image etc.) are kept
sh={}
def strip(t): 
    t=re.sub(r'//[^\n]*','',t); t=re.sub(r'#\[[^\]]*\]','',t); return t
def block(t,i):
    d=0
    for k in range(i,len(t)):
        if t[k]=='{':d+=1
        if t[k]=='}':
            d-=1
            if d==0: return t[i+1:k]
for f in sorted(glob.glob(R+'*.rs')):
    t=open(f).read()
    for m in re.finditer(r'^(impl_shorthand|define_shorthand|define_list_shorthand|shorthand_property|rect_shorthand|size_shorthand)! \{',t,re.M):
        kind=m.group(1)
        line=t[:m.start()].count('\n')+1
        b=strip(block(t,m.end()-1))
        if kind=='impl_shorthand':
            mm=re.search(r'(\w+)\(',b); nm=mm.group(1)
            inner=block(b,b.index('{'))
            groups=[re.findall(r'(\w+)(?:\(VendorPrefix\))?',g) for g in re.findall(r'\w+:\s*\[([^\]]*)\]',inner)]
            groups=[[x for x in g if x!='VendorPrefix'] for g in groups]
        else:
            mm=re.search(r'struct (\w+)',b); nm=mm.group(1)
            inner=block(b,b.index('{'))
            if kind=='rect_shorthand': groups=[[x] for x in re.findall(r'\w+',inner)]
            elif kind=='size_shorthand': groups=[[x] for x in re.findall(r'\w+:\s*(\w+)',inner)]
            else: groups=[[x] for x in re.findall(r'\w+:\s*(\w+)\(',inner)]
        sh[nm]=(groups,kind=='define_list_shorthand',os.path.basename(f),line)
out=[]
low=lambda n:n[0].lower()+n[1:]
RES={'all','mask','open','end','where','from','at'}
def ctor(n): 
    return low(n)
for p in props:
    if p['short'] and p['name'] not in sh: print('no shorthand def',p['name'])
    if p['name'] in sh and not p['short']: print('not short',p['name'])
for n in sh:
    if n not in names: print('unknown shorthand',n)
    for g in sh[n][0]:
        for x in g:
            if x not in names: print('unknown member',n,x)
w=out.append
w('import Verif.Targets.Browsers')
w('/-! Generated by tools/gen_props.py from /repo/src/properties/*.rs: the properties and their shorthands. -/')
w('namespace Verif.Declarations')
w('')
w('/-- src/properties/mod.rs:%d-%d, the arguments of `define_properties!`. -/'%(L0,props[-1]['line']))
w('inductive Pr where')
for p in props: w('  | %s'%ctor(p['name']))
w('deriving DecidableEq, Repr')
w('')
w('/-- Whether the property id carries a vendor prefix (the second field of the property in `define_properties!`). -/')
w('def Pr.hasVp : Pr → Bool')
for p in props:
    if p['vp']: w('  | .%s => true'%ctor(p['name']))
w('  | _ => false')
w('')
groups=sorted({p['group'] for p in props if p['group']})
w('/-- src/logical.rs `LogicalGroup`. -/')
w('inductive Group where')
w('  | '+' | '.join(ctor(g) for g in groups))
w('deriving DecidableEq, Repr')
w('')
w('/-- `logical_group:` of `define_properties!`. -/')
w('def Pr.group : Pr → Option Group')
for p in props:
    if p['group']: w('  | .%s => some .%s'%(ctor(p['name']),ctor(p['group'])))
w('  | _ => none')
w('')
w('/-- src/logical.rs `PropertyCategory`. -/')
w('inductive Category where')
w('  | logical | physical')
w('deriving DecidableEq, Repr')
w('')
w('/-- `category:` of `define_properties!`. -/')
w('def Pr.category : Pr → Option Category')
for p in props:
    if p['cat']: w('  | .%s => some .%s'%(ctor(p['name']),ctor(p['cat'])))
w('  | _ => none')
w('')
w('/-- A shorthand: its fields, each with the longhands that share it, and whether it is a comma separated list\n(`define_list_shorthand!`). -/')
w('structure ShInfo where\n  groups : List (List Pr)\n  isList : Bool\nderiving DecidableEq, Repr')
w('')
w('/-- The shorthands (`impl_shorthand!`, `define_shorthand!`, `define_list_shorthand!`, `rect_shorthand!`, `size_shorthand!`).\n`background` has its own implementation (src/properties/background.rs:550-800) and is left out: it is treated as a\nproperty without longhands. -/')
w('def Pr.sh : Pr → Option ShInfo')
for p in props:
    n=p['name']
    if n in sh and p['short']:
        g,l,f,ln=sh[n]
        w('  -- %s:%d'%(f,ln))
        w('  | .%s => some ⟨[%s], %s⟩'%(ctor(n),', '.join('['+', '.join('.'+ctor(x) for x in gg)+']' for gg in g),'true' if l else 'false'))
w('  | _ => none')
w('')
w('/-- All properties. -/')
w('def Pr.all : List Pr := [%s]'%', '.join('.'+ctor(p['name']) for p in props))
w('')
w('end Verif.Declarations')
open('/verif/lean/Verif/Declarations/Table.lean','w').write('\n'.join(out)+'\n')
print(len(props),len(sh))
vp={p['name']:p['vp'] for p in props}
for n,(g,l,f,ln) in sh.items():
    mix=[x for gg in g for x in gg if vp.get(x)!=vp.get(n)]
    if mix: print('vp mismatch',n,vp.get(n),mix)
