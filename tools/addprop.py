#!/usr/bin/env python3
"""Append properties to properties.jsonl: reads a JSON list from stdin."""
import json,sys,os
p=os.path.join(os.path.dirname(__file__),'..','properties.jsonl')
have=[json.loads(l)['id'] for l in open(p) if l.strip()]
with open(p,'a') as f:
    for d in json.load(sys.stdin):
        assert d['id'] not in have, d['id']
        f.write(json.dumps({k:d[k] for k in ("id","title","statement","quantifier","why_tests_cant","anchors")})+'\n')
