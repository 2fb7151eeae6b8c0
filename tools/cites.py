"""Check that the lines cited in the model exist in /repo."""
import re, glob, os
files = {}
for p in glob.glob('/repo/pdfmajor/**/*.py', recursive=True):
    files[p[len('/repo/pdfmajor/'):]] = sum(1 for _ in open(p, errors='replace'))
bad = 0
for f in sorted(glob.glob('/verif/lean/Verif/**/*.lean', recursive=True)):
    s = open(f).read()
    for m in re.finditer(r'([\w/]+\.py):(\d+(?:-\d+)?(?:, \d+(?:-\d+)?)*)', s):
        name = m.group(1)
        c = [n for n in files.items() if n[0] == name or n[0].endswith('/' + name)]
        mx = max(int(x) for x in re.findall(r'\d+', m.group(2)))
        if not c or mx > max(n for _, n in c) + 1:
            bad += 1
            print(os.path.relpath(f, '/verif/lean'), s[:m.start()].count('\n') + 1, m.group(0), c)
print(bad, 'bad citations')
