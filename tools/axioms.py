"""Print the axioms of every property theorem and write the table into DESIGN.md between the markers."""
import json,subprocess,re,collections
M=json.load(open('/verif/MANIFEST.json'))
import glob
names=[]
for f in sorted(glob.glob('/verif/lean/Verif/**/Theorems*.lean',recursive=True)):
    s=open(f).read(); ns=re.search(r'^namespace (\S+)',s,re.M).group(1)
    names+=[ns+'.'+n for n in re.findall(r'^theorem (C\d\d+_\w+)',s,re.M)]
print(len(names),sum(len(c['theorems']) for c in M['claims']))
open('/tmp/ax_audit.lean','w').write('import Verif\n'+''.join(f'#print axioms {n}\n' for n in names))
o=subprocess.run(['lake','env','lean','/tmp/ax_audit.lean'],cwd='/verif/lean',capture_output=True,text=True).stdout
g=collections.defaultdict(list)
for m in re.finditer(r"'([\w.]+)' (does not depend on any axioms|depends on axioms: \[([^\]]*)\])",o):
    k=', '.join(x.strip() for x in m.group(3).split(',')) if m.group(3) else 'none'
    g[k].append(m.group(1).split('.')[-1])
out=''
for k in sorted(g): out+=f'* **{k}** ({len(g[k])}): '+', '.join(f'`{x}`' for x in sorted(g[k]))+'\n'
d=open('/verif/DESIGN.md').read()
a,b='<!-- axioms -->','<!-- /axioms -->'
i,j=d.index(a)+len(a),d.index(b)
open('/verif/DESIGN.md','w').write(d[:i]+'\n'+out+d[j:])
print({k:len(v) for k,v in g.items()})
