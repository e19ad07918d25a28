#!/usr/bin/env python3
"""Regenerate MANIFEST.json from the theorem names Cnn_* in lean/Verif and notes.json (property -> {status, note})."""
import re,glob,json,collections
th=collections.defaultdict(list)
for p in sorted(glob.glob('/verif/lean/Verif/**/*.lean',recursive=True)):
    stack=[]
    for line in open(p):
        m=re.match(r'namespace (\S+)',line)
        if m: stack.append(m.group(1))
        m=re.match(r'end (\S+)',line)
        if m and stack and stack[-1]==m.group(1): stack.pop()
        m=re.match(r'theorem (C(\d\d\d?)_\w+)',line)
        if m: th['C'+m.group(2)].append('.'.join(stack+[m.group(1)]))
notes=json.load(open('/verif/notes.json'))
ids=[json.loads(l)['id'] for l in open('/verif/properties.jsonl')]
out=[]
for i in ids:
    if i in notes:
        out.append({"property":i,"status":notes[i][0],"theorems":th[i],"note":notes[i][1]})
        assert th[i] or notes[i][0]=='not_applicable',i
    elif th[i]: print('no note for',i,th[i])
    else: print('nothing for',i)
json.dump({"claims":out},open('/verif/MANIFEST.json','w'),indent=1)
