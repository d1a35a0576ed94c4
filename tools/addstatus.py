#!/usr/bin/env python3
"""addstatus.py ID STATUS NOTE: record a claim status, then regenerate the manifest."""
import json, os, sys, subprocess
root = os.path.dirname(os.path.dirname(os.path.abspath(__file__)))
s = json.load(open(root + '/tools/status.json'))
s[sys.argv[1]] = {'status': sys.argv[2], 'note': sys.argv[3]}
json.dump(s, open(root + '/tools/status.json', 'w'), indent=1)
subprocess.run([sys.executable, root + '/tools/manifest.py'])
