#!/usr/bin/env python3
"""tools/addstatus.py ID STATUS NOTE: records a status/note in tools/status.json"""
import json, sys, os
p = os.path.join(os.path.dirname(os.path.abspath(__file__)), 'status.json')
d = json.load(open(p)); d[sys.argv[1]] = [sys.argv[2], sys.argv[3]]
open(p, 'w').write('{\n' + ',\n'.join(json.dumps(k) + ': ' + json.dumps(d[k]) for k in sorted(d)) + '\n}\n')
