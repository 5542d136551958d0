import json, sys, os
sys.path.insert(0, os.path.dirname(__file__))
import props_a, props_b
out = os.path.join(os.path.dirname(__file__), '..', 'properties.jsonl')
with open(out, 'w') as f:
    for q in props_a.P:
        f.write(json.dumps(q, ensure_ascii=False) + '\n')
print(len(props_a.P), 'properties')
