import json,sys
# usage: addprop.py < json-lines ; appends properties not yet listed
ids={json.loads(l)['id'] for l in open('/verif/properties.jsonl')}
with open('/verif/properties.jsonl','a') as f:
    for l in sys.stdin:
        if l.strip():
            o=json.loads(l); assert set(o)=={'id','title','statement','quantifier','why_tests_cant','anchors'},o
            assert o['id'] not in ids,o['id']
            f.write(json.dumps(o)+'\n')
