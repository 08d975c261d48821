#!/usr/bin/env python3
"""Writes /verif/MANIFEST.json from the list below; checks that each theorem name occurs in the sources."""
import json,re,glob,os
root=os.path.dirname(os.path.dirname(os.path.abspath(__file__)))
exec(open(os.path.join(root,'tools/claims.py')).read())
src=''
for f in glob.glob(root+'/lean/Verif/**/*.lean',recursive=True): src+=open(f).read()
ids=[json.loads(l)['id'] for l in open(root+'/properties.jsonl')]
for c in claims:
    for t in c['theorems']:
        short=t.split('.')[-1]
        assert re.search(r'theorem '+re.escape(short)+r'\b',src),t
have={c['property'] for c in claims}
missing=[i for i in ids if i not in have]
print('missing',missing)
json.dump({"claims":claims},open(root+'/MANIFEST.json','w'),indent=1)
