#!/usr/bin/env python3
"""Generates lean/Verif/Targets/{CompatTable,PrefixTable}.lean from /repo/src/{compat,prefixes}.rs.
Refuses any statement form it does not know."""
import re,sys
OUT='/verif/lean/Verif/Targets/'
BR={'android':'android','chrome':'chrome','edge':'edge','firefox':'firefox','ie':'ie','ios_saf':'iosSaf','opera':'opera','safari':'safari','samsung':'samsung'}
PF={'WebKit':'webkit','Moz':'moz','Ms':'ms','O':'o','None':'none'}
def lname(s): return s[0].lower()+s[1:]
def load(fn):
    L=open('/repo/src/'+fn).read().split('\n')
    return L
def enum(L):
    i=next(k for k,l in enumerate(L) if l.startswith('pub enum Feature'))
    res=[]
    k=i+1
    while L[k]!='}':
        m=re.fullmatch(r'  (\w+),',L[k]); assert m,L[k]
        res.append(m.group(1)); k+=1
    return res,i+1,k+1
def arms(L,start):
    """yield (features, body lines with numbers)"""
    k=start
    while True:
        if L[k]=='    }': return
        hdr=L[k]; first=k
        while not L[k].rstrip().endswith('{') and not L[k].rstrip().endswith('{}') and not L[k].rstrip().endswith(','):
            k+=1; hdr+=' '+L[k]
        feats=re.findall(r'Feature::(\w+)',hdr)
        chk=re.sub(r'Feature::\w+','F',hdr); chk=re.sub(r'\s+',' ',chk).strip()
        if chk.endswith(','):
            assert re.fullmatch(r'F( \| F)* => return false,',chk),chk
            yield feats,first,k,['NEVER']
            k+=1; continue
        if chk.endswith('{}'):
            assert re.fullmatch(r'F( \| F)* => \{\}',chk),chk
            yield feats,first,k,[]
            k+=1; continue
        assert re.fullmatch(r'F( \| F)* => \{',chk),chk
        k+=1; body=[]
        while L[k]!='      }':
            body.append(L[k]); k+=1
        yield feats,first,k,body
        k+=1
def toks(body): return re.findall(r'\w+::\w+|\w+|[{}();.|&<>=!]+?(?=[\s\w{}();]|$)|\S',' '.join(body))
def compat():
    L=load('compat.rs')
    feats,a,b=enum(L)
    s=next(k for k,l in enumerate(L) if 'pub fn is_compatible' in l)
    assert L[s+1].strip()=='match self {'
    seen={}
    out=[]
    end=None
    for fs,f0,f1,body in arms(L,s+2):
        t=re.sub(r'\s+',' ',' '.join(body)).strip()
        checks=[]
        if t=='NEVER': checks.append('.never'); t=''
        while t:
            m=re.match(r'if let Some\(version\) = browsers\.(\w+) \{ if version < (\d+) \{ return false; \} \} ?',t)
            if m:
                checks.append('.atLeast .%s %s'%(BR[m.group(1)],m.group(2))); t=t[m.end():]; continue
            m=re.match(r'if ((?:browsers\.\w+\.is_some\(\)(?: \|\| )?)+) \{ return false; \} ?',t)
            if m:
                bs=re.findall(r'browsers\.(\w+)\.is_some',m.group(1))
                checks.append('.absent [%s]'%', '.join('.'+BR[x] for x in bs)); t=t[m.end():]; continue
            raise Exception('unknown: '+t[:200])
        for f in fs:
            assert f in feats and f not in seen,f
            seen[f]=1
        out.append((fs,f0+1,f1+1,checks)); end=f1+1
    assert set(seen)==set(feats), set(feats)-set(seen)
    assert L[end].strip()=='}' and L[end+1].strip()=='true',(L[end],L[end+1])
    w=open(OUT+'CompatTable.lean','w')
    w.write('import Verif.Targets.Browsers\n/-! Generated by tools/gen_tables.py from /repo/src/compat.rs. -/\nnamespace Verif.Targets\n\n')
    w.write('/-- src/compat.rs:%d-%d `Feature`. -/\ninductive CompatFeature where\n'%(a,b))
    for f in feats: w.write('  | %s\n'%lname(f))
    w.write('deriving DecidableEq, Repr\n\n')
    w.write('/-- src/compat.rs:%d-%d, the body of `is_compatible`, one list of guards per arm (`if .. { return false }`, in order). -/\n'%(s+1,end+2))
    w.write('def CompatFeature.guards : CompatFeature → List Guard\n')
    for fs,x,y,ch in out:
        w.write('  -- lines %d-%d\n'%(x,y))
        w.write('  '+' '.join('| .%s'%lname(f) for f in fs)+' =>\n    ['+', '.join(ch)+']\n')
    w.write('\nend Verif.Targets\n')
    print('compat',len(feats),len(out))
def prefixes():
    L=load('prefixes.rs')
    feats,a,b=enum(L)
    s=next(k for k,l in enumerate(L) if 'pub fn prefixes_for' in l)
    assert L[s+1].strip()=='let mut prefixes = VendorPrefix::None;' and L[s+2].strip()=='match self {'
    seen={}; out=[]
    for fs,f0,f1,body in arms(L,s+3):
        t=re.sub(r'\s+',' ',' '.join(body)).strip()
        rules=[]
        while t:
            m=re.match(r'if let Some\(version\) = browsers\.(\w+) \{ ((?:if [^{}]* \{ prefixes \|= VendorPrefix::\w+; \} ?)+)\} ?',t)
            if m:
                br=BR[m.group(1)]
                for c,p in re.findall(r'if ([^{}]*) \{ prefixes \|= VendorPrefix::(\w+); \}',m.group(2)):
                    c=c.strip()
                    r=re.fullmatch(r'version >= (\d+) && version <= (\d+)',c)
                    if r: lo,hi=r.group(1),'(some %s)'%r.group(2)
                    else:
                        r=re.fullmatch(r'version <= (\d+)',c)
                        if r: lo,hi='0','(some %s)'%r.group(1)
                        else:
                            r=re.fullmatch(r'version == (\d+)',c)
                            if r: lo,hi=r.group(1),'(some %s)'%r.group(1)
                            else:
                                r=re.fullmatch(r'version >= (\d+)',c); assert r,c
                                lo,hi=r.group(1),'none'
                    rules.append('⟨.%s, %s, %s, .%s⟩'%(br,lo,hi,PF[p]))
                t=t[m.end():]; continue
            m=re.match(r'if browsers\.(\w+)\.is_some\(\) \{ prefixes \|= VendorPrefix::(\w+); \} ?',t)
            if m:
                rules.append('⟨.%s, 0, none, .%s⟩'%(BR[m.group(1)],PF[m.group(2)])); t=t[m.end():]; continue
            raise Exception('unknown: '+t[:200])
        for f in fs:
            assert f in feats and f not in seen,f
            seen[f]=1
        out.append((fs,f0+1,f1+1,rules)); end=f1+1
    assert set(seen)==set(feats), set(feats)-set(seen)
    assert L[end].strip()=='}' and L[end+1].strip()=='prefixes',(L[end],L[end+1])
    w=open(OUT+'PrefixTable.lean','w')
    w.write('import Verif.Targets.Browsers\n/-! Generated by tools/gen_tables.py from /repo/src/prefixes.rs. -/\nnamespace Verif.Targets\n\n')
    w.write('/-- src/prefixes.rs:%d-%d `Feature`. -/\ninductive PrefixFeature where\n'%(a,b))
    for f in feats: w.write('  | %s\n'%lname(f))
    w.write('deriving DecidableEq, Repr\n\n')
    w.write('/-- src/prefixes.rs:%d-%d, the body of `prefixes_for`: one rule per `prefixes |= ..` statement, in order. `version <= b` has lower bound 0, `version == a` has both bounds `a`, `is_some()` has bounds 0 and none. -/\n'%(s+1,end+2))
    w.write('def PrefixFeature.rules : PrefixFeature → List PrefixRule\n')
    for fs,x,y,ch in out:
        w.write('  -- lines %d-%d\n'%(x,y))
        w.write('  '+' '.join('| .%s'%lname(f) for f in fs)+' =>\n    ['+', '.join(ch)+']\n')
    w.write('\nend Verif.Targets\n')
    # is_flex_2009 / is_webkit_gradient
    for fn in ('is_flex_2009','is_webkit_gradient'):
        i=next(k for k,l in enumerate(L) if 'pub fn '+fn in l); j=i
        while L[j]!='}': j+=1
        t=re.sub(r'\s+',' ',' '.join(L[i+1:j])).strip()
        print(fn,i+1,j+1,re.findall(r'browsers\.(\w+) \{ if version >= (\d+) && version <= (\d+) \{ return true; \} \}',t),t.count('if let'))
    print('prefix',len(feats),len(out))
compat(); prefixes()
