#!/usr/bin/env python3
"""Translate the instruction lists of fe_amd64.s to Lean, one constructor per line, into lean/Verif/EdHost/AsmProg.lean."""
import re
src=open('/repo/circuits/gadgets/ed25519/test/field/fe_amd64.s').read().split('\n')
progs={}; cur=None
REG=r'(AX|BX|CX|DX|SI|DI|R8|R9|R1[0-5])'
def tr(l):
    m=re.fullmatch(r'MOVQ\s+\w+\+(\d+)\(FP\), '+REG,l)
    if m: return f'.movArg {m[1]} .{m[2]}'
    m=re.fullmatch(r'MOVQ\s+(\d*)\('+REG+r'\), '+REG,l)
    if m: return f'.load {m[1] or 0} .{m[2]} .{m[3]}'
    m=re.fullmatch(r'MOVQ\s+'+REG+r', (\d*)\('+REG+r'\)',l)
    if m: return f'.store .{m[1]} {m[2] or 0} .{m[3]}'
    m=re.fullmatch(r'MOVQ\s+'+REG+', '+REG,l)
    if m: return f'.mov .{m[1]} .{m[2]}'
    m=re.fullmatch(r'MOVQ\s+\$(0x[0-9a-f]+), '+REG,l)
    if m: return f'.movI {m[1]} .{m[2]}'
    m=re.fullmatch(r'MULQ\s+(\d*)\('+REG+r'\)',l)
    if m: return f'.mul {m[1] or 0} .{m[2]}'
    m=re.fullmatch(r'IMUL3Q\s+\$(0x[0-9a-f]+), '+REG+', '+REG,l)
    if m: return f'.imul3 {m[1]} .{m[2]} .{m[3]}'
    m=re.fullmatch(r'(ADDQ|ADCQ|ANDQ)\s+'+REG+', '+REG,l)
    if m: return f'.{ {"ADDQ":"add","ADCQ":"adc","ANDQ":"and"}[m[1]] } .{m[2]} .{m[3]}'
    m=re.fullmatch(r'SHLQ\s+\$(0x[0-9a-f]+), '+REG+', '+REG,l)
    if m: return f'.shld {m[1]} .{m[2]} .{m[3]}'
    m=re.fullmatch(r'(SHLQ|SHRQ)\s+\$(0x[0-9a-f]+), '+REG,l)
    if m: return f'.{ {"SHLQ":"shl","SHRQ":"shr"}[m[1]] } {m[2]} .{m[3]}'
    raise Exception(l)
for n,l in enumerate(src,1):
    l=l.strip()
    m=re.match(r'TEXT ·(\w+)\(SB\)',l)
    if m: cur=m[1]; progs[cur]=[]; continue
    if cur is None or not l or l.startswith('//'):
        if cur and l.startswith('//'): progs[cur].append(('c',n,l))
        continue
    if l=='RET': progs[cur].append(('r',n,l)); cur=None; continue
    progs[cur].append(('i',n,tr(l)))
out='''import Verif.EdHost.AsmModel

/-! # The instruction lists of /repo/circuits/gadgets/ed25519/test/field/fe_amd64.s

Written by tools/asm2lean.py, one constructor per source line. -/

namespace Verif.EdHost.Amd64

'''
seg={}
for f,items in progs.items():
    # segments by comments
    segs=[]; name=None
    for k,n,t in items:
        if k=='c':
            segs.append((n,t,[]))
        elif k=='i':
            if not segs: segs.append((n,'// load pointers',[]))
            segs[-1][2].append((n,t))
    seg[f]=segs
    ren={'// First reduction chain':'red1','// Second reduction chain (carryPropagate)':'red2','// Store output':'st','// load pointers':'ptr'}
    groups={}
    order=[]
    for n,t,ins in segs:
        m=re.match(r'// (r\d) (=|\+=)',t)
        key=m[1] if m else ren.get(t)
        if key is None: continue
        if key not in groups: groups[key]=[]; order.append(key)
        groups[key].append((n,t,ins))
    for key in order:
        g=groups[key]
        a=g[0][2][0][0]; b=g[-1][2][-1][0]
        out+=f'/-- fe_amd64.s:{a}-{b}: {"; ".join(t[3:] for _,t,_ in g)}. -/\n'
        out+=f'def {f}_{key} : List Ins := [\n'
        rows=[]
        for n,t,ins in g:
            rows.append('  '+', '.join(x for _,x in ins))
        # wrap long
        w=[]
        for r in rows:
            cur2='  '
            for x in r.strip().split(', '):
                if len(cur2)+len(x)>118: w.append(cur2.rstrip()); cur2='  '
                cur2+=x+', '
            w.append(cur2.rstrip())
        out+='\n'.join(w).rstrip(',')+']\n\n'
    out+=f'/-- fe_amd64.s `{f}`. -/\ndef {f}Asm : List Ins := '+' ++ '.join(f'{f}_{k}' for k in order)+'\n\n'
out+='end Verif.EdHost.Amd64\n'
open('/verif/lean/Verif/EdHost/AsmProg.lean','w').write(out)
