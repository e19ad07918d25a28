#!/usr/bin/env python3
"""Regenerate DESIGN.md from design_head.md, properties.jsonl, notes.json, design_methods.json and the theorem names / citations in lean/Verif."""
import re,glob,json,collections
root='/verif/lean/Verif/'
props=[json.loads(l) for l in open('/verif/properties.jsonl')]
notes=json.load(open('/verif/notes.json'))
meth=json.load(open('/verif/design_methods.json'))
th=collections.defaultdict(list); where=collections.defaultdict(set)
for p in sorted(glob.glob(root+'**/*.lean',recursive=True)):
    s=open(p).read(); m0=p[len(root):]
    for m in re.finditer(r'^theorem (C(\d\d\d?)_\w+)',s,re.M):
        th['C'+m.group(2)].append(m.group(1)); where['C'+m.group(2)].add(m0)
o=[open('/verif/design_head.md').read().rstrip(),'','## 5. Properties: what is modelled, how it is proved','']
for p in props:
    i=p['id']; st,nt=notes.get(i,('planned',''))
    o.append(f"### {i} — {p['title']} ({st})")
    o.append(p['statement']); o.append('')
    m=meth.get(i,{})
    if m.get('spec'): o.append(f"*Specification:* {m['spec']}")
    if m.get('proof'): o.append(f"*Proof:* {m['proof']}")
    if m.get('not'): o.append(f"*Not modelled / excluded:* {m['not']}")
    o.append(f"*Model:* {', '.join('`'+x+'`' for x in m.get('model',[]))}; *theorems in* {', '.join('`'+x+'`' for x in sorted(where[i]))}.")
    o.append(f"*Code:* {'; '.join(p['anchors'])}.")
    main=[t for t in th[i]]
    o.append('*Theorems:* '+', '.join('`'+t+'`' for t in main)+'.')
    if nt: o.append('*Remarks:* '+nt)
    o.append('')
o+=['## 6. Model inventory (definitions → C code)','',
 'Generated from the citations that stand in the comments of the definitions.','']
for p in sorted(glob.glob(root+'**/*.lean',recursive=True)):
    s=open(p).read()
    c=re.findall(r'((?:libcob|cobc|lib)/[\w.]+\.[chy])[: ]\s*([\d][\d–, -]*)[^`\n]{0,30}`(\w+)`',s)
    if not c: continue
    d=collections.OrderedDict()
    for f,l,n in c: d.setdefault(f,[]).append(f'{n} ({l.strip()})')
    o.append(f"* `{p[len(root):]}`: "+'; '.join(f"{f}: "+', '.join(dict.fromkeys(v)) for f,v in d.items()))
open('/verif/DESIGN.md','w').write('\n'.join(o)+'\n')
