"""Checks that the anchors of properties.jsonl exist in /repo."""
import json, ast, os
bad = 0
for l in open('/verif/properties.jsonl'):
    r = json.loads(l)
    for a in r['anchors']:
        f, _, sym = a.partition(':')
        path = '/repo/' + f
        if not os.path.exists(path): print(r['id'], a, 'no file'); bad += 1; continue
        if sym and f.endswith('.py'):
            body = ast.parse(open(path).read()).body
            ok = True
            for part in sym.split('.'):
                hit = [c for c in ast.walk(ast.Module(body=body, type_ignores=[])) if isinstance(c, (ast.FunctionDef, ast.ClassDef)) and c.name == part]
                hit2 = [c for c in body if isinstance(c, ast.Assign) and any(getattr(t, 'id', None) == part for t in c.targets)]
                if not hit and not hit2: ok = False; break
                if hit: body = hit[0].body
            if not ok: print(r['id'], a, 'no symbol'); bad += 1
print(bad, 'bad anchors')
