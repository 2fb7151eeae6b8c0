"""Generates lean/Verif/Model/CcittTables.lean from pdfmajor/parser/PDFStream/ccitt.py."""
import re
src=open('/repo/pdfmajor/parser/PDFStream/ccitt.py').read().split('\n')
T={}
for n,l in enumerate(src,1):
    m=re.match(r"\s*BitParser.add\((\w+), *(.+?) *, *'([01]+)'\)",l)
    if m: T.setdefault(m[1],[]).append((n,m[2],m[3]))
def run(name,doc):
    rows=T[name]
    out=["/-- The codes of `%s` (PDFStream/ccitt.py:%d-%d). -/"%(name,rows[0][0],rows[-1][0]),"def %sCodes : List (Nat × String) := ["%doc]
    line="  "
    for i,(n,v,b) in enumerate(rows):
        s='(%d, "%s")'%(int(v),b)+(", " if i<len(rows)-1 else "]")
        if len(line+s)>120: out.append(line.rstrip()); line="  "
        line+=s
    out.append(line); return "\n".join(out)
print(len(T['WHITE']),len(T['BLACK']),len(T['MODE']),len(T['UNCOMPRESSED']), [ (r[1],r[2]) for r in T['MODE']])
txt="""import Verif.Model.Basic
/-! The run length codes of `CCITTG4Parser`. Generated by tools/ccitt.py. -/

namespace Pdf

%s

%s

end Pdf
"""%(run('WHITE','white'),run('BLACK','black'))
open('/verif/lean/Verif/Model/CcittTables.lean','w').write(txt)
