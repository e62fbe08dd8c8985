#!/usr/bin/env python3
"""Translate the generated Go tries (SipMethodIndex.go, SipHeadersIndex.go) to Lean terms of type Trie.
Strict: any line that is not one of the five statement shapes aborts."""
import re, sys
REPO='/repo/src/sipparser/'
def load(fn, func, unk):
    lines=open(REPO+fn).read().split('\n')
    consts={}
    for l in lines:
        m=re.match(r'\s*(SIP_\w+)\s+(?:byte|SipHeaderIndexType)\s*=\s*(\d+)\s*$',l)
        if m: consts[m.group(1)]=int(m.group(2))
    i=next(k for k,l in enumerate(lines) if l.startswith('func '+func))
    # join && continuations, keep line numbers
    body=[];k=i+1
    while not lines[k].startswith('}'):
        l=lines[k].strip(); n=k+1
        while l.endswith('&&'):
            k+=1; l+=' '+lines[k].strip()
        if l: body.append((n,l))
        k+=1
    return consts,body,(i+1,k+1)
def cond(c,low_expected=None):
    c=c.strip()
    m=re.fullmatch(r"\(\(src\[pos(?:\+(\d+))?\] \| 0x20\) == '(.)'\)",c)
    if m: return (int(m.group(1) or 0),True,m.group(2))
    m=re.fullmatch(r"\(src\[pos(?:\+(\d+))?\] == '(.)'\)",c)
    if m: return (int(m.group(1) or 0),False,m.group(2))
    raise SystemExit('cond '+c)
class P:
    def __init__(s,consts,toks,unk): s.c=consts; s.t=toks; s.i=0; s.unk=unk
    def peek(s): return s.t[s.i][1] if s.i<len(s.t) else None
    def nxt(s): x=s.t[s.i]; s.i+=1; return x
    def exp(s,l):
        n,x=s.nxt()
        if x!=l: raise SystemExit(f'line {n}: expected {l!r} got {x!r}')
    def isend(s): return s.peek() in (None,'}') or s.peek().startswith('case ')
    def tail_fail(s):
        """after a fall-through only `return UNKNOWN, pos` or the end of the block may follow"""
        if s.isend(): return
        s.exp(f'return {s.unk}, pos')
        if not s.isend(): raise SystemExit(f'trailing {s.peek()}')
    def block(s):
        if s.isend(): return ('fail',)
        n,x=s.nxt()
        if x==f'return {s.unk}, pos':
            assert s.isend(); return ('fail',)
        if x=='if (pos >= len1) || !IsSipToken(src[pos]) {':
            m=re.fullmatch(r'return (\w+), pos',s.nxt()[1]); s.exp('}')
            return ('acc',s.c[m.group(1)],s.block(),n)
        m=re.fullmatch(r'if \(pos < len1\) && (.*) \{',x)
        if m:
            k,low,ch=cond(m.group(1)); assert k==0
            s.exp('pos++'); b=s.block(); s.exp('}'); s.tail_fail()
            return ('byte',low,ch,b,n)
        m=re.fullmatch(r'if \(pos \+ (\d+)\) >= len1 \{',x)
        if m:
            g=int(m.group(1))
            s.exp(f'return {s.unk}, pos'); s.exp('}')
            n,x=s.nxt(); m=re.fullmatch(r'if (.*) \{',x)
            cs=[cond(c) for c in m.group(1).split('&&')]
            assert [c[0] for c in cs]==list(range(len(cs))),n
            assert g+1==len(cs),n
            s.exp(f'pos += {len(cs)}'); b=s.block(); s.exp('}'); s.tail_fail()
            return ('lits',[(c[1],c[2]) for c in cs],b,n)
        m=re.fullmatch(r'switch src\[pos\]( \| 0x20)? \{',x)
        if m:
            low=bool(m.group(1)); cases=[]
            while s.peek()!='}':
                mm=re.fullmatch(r"case '(.)':",s.nxt()[1]); s.exp('pos++')
                cases.append((mm.group(1),s.block()))
            s.exp('}'); s.tail_fail()
            r=('fail',)
            for ch,b in reversed(cases): r=('case',low,ch,b,r)
            return r
        raise SystemExit(f'line {n}: {x}')
def B(ch): return '0x%02x'%ord(ch)
def bl(b): return 'true' if b else 'false'
def lean(t,ind):
    sp=' '*ind
    k=t[0]
    if k=='fail': return '.fail'
    if k=='acc': return f'.acc {t[1]} ({lean(t[2],ind)})' if t[2]!=('fail',) else f'.acc {t[1]} .fail'
    if k=='byte': return f'.byte ⟨{bl(t[1])}, {B(t[2])}⟩ ({lean(t[3],ind)})'
    if k=='lits': return f'.lits [{", ".join(f"⟨{bl(a)}, {B(b)}⟩" for a,b in t[1])}] ({lean(t[2],ind)})'
    if k=='case': return f'.case ⟨{bl(t[1])}, {B(t[2])}⟩ ({lean(t[3],ind+1)})\n{sp}({lean(t[4],ind)})'
def paths(t,pre):
    k=t[0]
    if k=='fail': return []
    if k=='acc': return [(pre,t[1])]+paths(t[2],pre)
    if k=='byte': return paths(t[3],pre+t[2])
    if k=='lits': return paths(t[2],pre+''.join(b for a,b in t[1]))
    return paths(t[3],pre+t[2])+paths(t[4],pre)
def stops(t,pre,first=True):
    k=t[0]
    if k=='fail': return []
    if k=='acc': return stops(t[2],pre)
    if k=='byte': return stops(t[3],pre+t[2])
    if k=='lits': return stops(t[2],pre+''.join(b for a,b in t[1]))
    return ([pre] if first else [])+stops(t[3],pre+t[2])+stops(t[4],pre,False)
def do(fn,func,unk):
    consts,body,rng=load(fn,func,unk)
    assert [x for _,x in body[:4]]==['len1 := AbnfPos(len(src))','if pos >= len1 {',f'return {unk}, pos','}']
    p=P(consts,body[4:],unk); t=p.block(); assert p.i==len(p.t)
    return consts,t,rng
def split(name,t,doc):
    """top level cases become separate definitions"""
    out=[];tops=[];
    r=t
    while r[0]=='case':
        nm=f'{name}_{r[2]}'; 
        out.append(f'/-- {doc}: the branch of the first byte `{r[2]}`. -/\ndef {nm} : Trie :=\n  {lean(r[3],2)}\n')
        tops.append((r[1],r[2],nm)); r=r[4]
    assert r==('fail',)
    s='.fail'
    for low,ch,nm in reversed(tops): s=f'.case ⟨{bl(low)}, {B(ch)}⟩ {nm}\n  ({s})'
    out.append(f'/-- {doc}: all branches. -/\ndef {name} : Trie :=\n  {s}\n')
    return '\n'.join(out)
if __name__=='__main__':
    mc,mt,mr=do('SipMethodIndex.go','GetSipMethodIndex','SIP_METHOD_UNKNOWN')
    hc,ht,hr=do('SipHeadersIndex.go','GetSipHeaderIndex','SIP_HDR_UNKNOWN')
    if len(sys.argv)>1:
        for a,b in paths(mt,'')+paths(ht,''): print(b,a)
        print(stops(mt,''),stops(ht,''))
    o='import Verif.Model.Trie\n/-! Generated by tools/gentrie.py from SipMethodIndex.go and SipHeadersIndex.go – do not edit. -/\nnamespace Sip\n\n'
    o+=split('methodTrie',mt,f'SipMethodIndex.go:{mr[0]}-{mr[1]} `GetSipMethodIndex`')+'\n'
    o+=split('headerTrie',ht,f'SipHeadersIndex.go:{hr[0]}-{hr[1]} `GetSipHeaderIndex`')+'\nend Sip\n'
    open('/verif/lean/Verif/Model/TrieTable.lean','w').write(o)
