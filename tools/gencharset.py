#!/usr/bin/env python3
"""Generates lean/Verif/Model/CharsetTable.lean from /repo/src/sipparser/AbnfCharset.go."""
import re
L=open('/repo/src/sipparser/AbnfCharset.go').read().split('\n')
vals=[];lines=[]
for i,l in enumerate(L,1):
    m=re.match(r'\s*(0x[0-9a-fA-F]{8}), /\* position (\d+)',l)
    if m: vals.append((int(m.group(1),16),int(m.group(2)))); lines.append(i)
assert len(vals)==512 and [p for _,p in vals]==list(range(256))*2
T=[[v for v,_ in vals[:256]],[v for v,_ in vals[256:]]]
if __name__=='__main__':
    out=["/-! GENERATED by tools/gencharset.py from src/sipparser/AbnfCharset.go: the two tables `g_charsets[0]` and `g_charsets[1]`. -/","namespace Sip",""]
    for k in (0,1):
        out.append(f"/-- AbnfCharset.go:{lines[256*k]}-{lines[256*k+255]} `g_charsets[{k}]`. -/")
        out.append(f"def charsetTable{k} : List Nat := [")
        for r in range(0,256,8):
            out.append("  "+", ".join("0x%08x"%v for v in T[k][r:r+8])+("," if r<248 else "]"))
        out.append("")
    out.append("end Sip")
    open('/verif/lean/Verif/Model/CharsetTable.lean','w').write("\n".join(out)+"\n")
