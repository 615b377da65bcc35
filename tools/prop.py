"""Add or replace a property in properties.jsonl: prop.put(id, title, statement, quantifier, why, anchors)."""
import json, os
P = os.path.join(os.path.dirname(__file__), '..', 'properties.jsonl')
def load(): return [json.loads(l) for l in open(P)]
def put(id, title, statement, quantifier, why, anchors):
    for a in anchors:
        f = a.split(':')[0].split(' ')[0]
        assert os.path.exists('/repo/' + f), f
    L = [x for x in load() if x['id'] != id]
    L.append(dict(id=id, title=title, statement=statement, quantifier=quantifier, why_tests_cant=why, anchors=anchors))
    L.sort(key=lambda x: int(x['id'][1:]))
    open(P, 'w').write(''.join(json.dumps(x, ensure_ascii=False) + '\n' for x in L))
def edit(id, **kw):
    L = load()
    for x in L:
        if x['id'] == id: x.update(kw)
    open(P, 'w').write(''.join(json.dumps(x, ensure_ascii=False) + '\n' for x in L))
