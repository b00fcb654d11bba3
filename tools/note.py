#!/usr/bin/env python3
"""note.py ID TEXT [STATUS]: set the manifest note of a property."""
import json, sys
p = '/verif/tools/notes.json'
n = json.load(open(p))
d = n.setdefault(sys.argv[1], {})
d['note'] = sys.argv[2]
if len(sys.argv) > 3: d['status'] = sys.argv[3]
json.dump(n, open(p, 'w'), indent=1, ensure_ascii=False, sort_keys=True)
