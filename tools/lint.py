import re,glob
for f in sorted(glob.glob('/verif/lean/Verif/Model/*.lean')):
    L=open(f).read().split('\n')
    for i,l in enumerate(L):
        if re.match(r'(@\[.*\] )?(private |noncomputable |partial )*(def|structure|inductive|abbrev|class) ',l):
            # preceding comment
            j=i-1
            while j>=0 and (L[j].startswith('@[') or L[j].strip()=='mutual'): j-=1
            k=j
            if not L[j].rstrip().endswith('-/'): print(f,i+1,'NODOC',l[:80]); continue
            while not L[k].startswith('/-'): k-=1
            c=' '.join(L[k:j+1])
            if '.py' not in c: print(f,i+1,'NOCITE',l[:60],'|',c[:100])
