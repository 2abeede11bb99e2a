"""List the functions of /repo that no citation `file.py:a-b` in the Lean model overlaps."""
import ast, re, os, glob
root='/repo/src/subgroups'
cites={}
for f in glob.glob('/verif/lean/Verif/**/*.lean',recursive=True):
    last=None
    for m in re.finditer(r'([\w/]+\.py):(\d+)(?:-(\d+))?|(?<=[,\s(`])`:(\d+)(?:-(\d+))?`|, `(\d+)-(\d+)`', open(f).read()):
        if m.group(1): last=m.group(1); a,b=int(m.group(2)),int(m.group(3) or m.group(2))
        elif m.group(4): a,b=int(m.group(4)),int(m.group(5) or m.group(4))
        else: a,b=int(m.group(6)),int(m.group(7))
        if last: cites.setdefault(os.path.basename(last),[]).append((a,b))
tot=cov=0
for f in sorted(glob.glob(root+'/**/*.py',recursive=True)):
    if '/tests/' in f or f.endswith('__init__.py'): continue
    t=ast.parse(open(f).read())
    for n in ast.walk(t):
        if isinstance(n,(ast.FunctionDef)):
            c=cites.get(os.path.basename(f),[])
            body=n.end_lineno-n.lineno+1
            ok=any(a<=n.end_lineno and b>=n.lineno for a,b in c)
            tot+=body; cov+=body if ok else 0
            if not ok: print(f[len(root)+1:],n.name,n.lineno,n.end_lineno)
print(cov,'of',tot,'function lines cited')
