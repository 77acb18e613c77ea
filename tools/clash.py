import re,glob,collections
d=collections.defaultdict(set)
for f in glob.glob('/verif/lean/Verif/**/*.lean',recursive=True):
    ns=[]
    for l in open(f):
        m=re.match(r'(namespace|section)\s*(\S*)',l)
        if m: ns.append((m[1],m[2]));continue
        if re.match(r'end\b',l):
            if ns: ns.pop()
            continue
        if l.startswith('private'): continue
        m=re.match(r'(?:@\[[^\]]*\]\s*)?(?:protected |noncomputable )?(?:def|theorem|structure|inductive|abbrev|class|instance|lemma)\s+([^\s:({\[]+)',l)
        if m:
            n='.'.join([x for k,x in ns if k=='namespace' and x]+[m[1]])
            d[n].add(f)
for n,fs in d.items():
    if len(fs)>1: print(n,fs)
