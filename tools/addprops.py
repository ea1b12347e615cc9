import json,sys
# stdin: one JSON array [id,title,statement,quantifier,why,anchors] per line; appended to properties.jsonl
with open('/verif/properties.jsonl','a') as f:
    for l in sys.stdin:
        l=l.strip()
        if l: f.write(json.dumps(dict(zip(("id","title","statement","quantifier","why_tests_cant","anchors"),json.loads(l))),ensure_ascii=False)+"\n")
