#!/usr/bin/env python3
"""Generates lean/Verif/Model/LatinEncoding.lean (the table of /repo/pdfmajor/utils/encoding/latin_enc.py) and
lean/Verif/Spec/AdobeGlyphs.lean (the entries of /repo/pdfmajor/utils/encoding/glyphlist.py for the names of that table)."""
import os
R='/repo/pdfmajor/utils/encoding/'
ns={}; exec(open(R+'latin_enc.py').read(),ns); L=ns['LATIN_ENCODING']
ns2={}; exec(open(R+'glyphlist.py').read(),ns2); G=ns2['glyphname2unicode']
o=lambda x: '.none' if x is None else f'some {x}'
out=['import Verif.Model.Paths','/-! Generated by tools/latin.py: the table of utils/encoding/latin_enc.py. -/','','namespace Pdf','',
'/-- `LATIN_ENCODING` (utils/encoding/latin_enc.py:10-243): name, StandardEncoding, MacRomanEncoding, WinAnsiEncoding, PDFDocEncoding. -/',
'def latinEncoding : List (PyStr × Option Nat × Option Nat × Option Nat × Option Nat) := [']
out.append(',\n'.join(f'  (pstr "{n}", {o(a)}, {o(b)}, {o(c)}, {o(d)})' for n,a,b,c,d in L)+']')
out+=['','end Pdf','']
open('/verif/lean/Verif/Model/LatinEncoding.lean','w').write('\n'.join(out))
names=sorted({r[0] for r in L})
out=['import Verif.Model.Paths','/-! Generated by tools/latin.py: the characters of the glyph names of the Latin character set (Adobe Glyph List). -/','','namespace Pdf.Spec','',
'/-- Glyph names of the Latin character set with their Unicode code points (Adobe Glyph List 2.0). -/',
'def adobeLatin : List (PyStr × Nat) := [']
out.append(',\n'.join(f'  (pstr "{n}", 0x{ord(G[n]):04x})' for n in names)+']')
out+=['','end Pdf.Spec','']
open('/verif/lean/Verif/Spec/AdobeGlyphs.lean','w').write('\n'.join(out))
