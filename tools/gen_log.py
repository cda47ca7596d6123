"""Converts the results of the mutation harness into seeded/LOG.jsonl."""
import json, sys, os
TIGHT = {
 'e04': ['C08_depends_shorthands (added)'], 'e05': ['C08_depends_shorthands (added)'], 'e22': ['C08_depends_shorthands (added)'],
 'e10': ['C09_empty_file (added)'], 'e19': ['C16_file_succeeds_iff (added)'], 'e17': ['C16_file_succeeds_iff (added)'],
 's12': ['C58_opened_database_partial (added)'], 's13': ['C24_opened_database (added)'], 'd23': ['C59_rules_arguments (added)'],
 'i24': ['C78_raises_for_a_reason (added)'], 'i23': ['C31_planned_groups (added)'], 'i25': ['C31_planned_groups (added)'],
 'v07': ['C30_raises_exactly (added)'], 'v08': ['C30_raises_exactly (added)'],
}
try:
    TIGHT.update(json.load(open(os.path.join(os.path.dirname(os.path.abspath(__file__)), 'tightened.json'))))
except IOError:
    pass
LABEL = 'the claim named first was an over-broad label: it stays true of the edited program; '
NOTE = {
 'e01': LABEL + 'C08 states the shorthand', 'd04': LABEL + 'C19 is about which sources are saved, C20 about reported failures',
 'd11': LABEL + 'distinct files are C24', 'd21': LABEL + 'with every file saved nothing raises; C23 covers bad files',
 'c34': LABEL + 'C52 is about the merged values; C48 states defaults', 'u11': LABEL + 'C42 states which options an installer gets', 'o19': LABEL + 'C14 quantifies over the table',
 'x21': LABEL + 'C80 is about output; C32-C34 state the flags', 'x22': LABEL + 'C80 is about output; C32-C34 state the flags',
 'v14': LABEL + 'C28 and C29 state the name', 'i07': LABEL + 'C36 and C37 state it',
}
try:
    for i, s in json.load(open(os.path.join(os.path.dirname(os.path.abspath(__file__)), 'lognotes.json'))).items():
        NOTE[i] = s
except IOError:
    pass
src = sys.argv[1]
out = os.path.join(os.path.dirname(os.path.abspath(__file__)), '..', 'seeded', 'LOG.jsonl')
os.makedirs(os.path.dirname(out), exist_ok=True)
seen = {}
for l in open(src):
    r = json.loads(l); seen[r['id']] = r
n = 0
with open(out, 'w') as f:
    for i, r in seen.items():
        d = {'id': i, 'definition': 'lean/Verif/Model/%s: %s' % (r['file'], r['definition']), 'edit': r['edit'], 'claim_broken': r['claims'],
             'theorems_failed': r['broken'], 'proofs_rejected_directly': r['direct'], 'claims_not_caught_at_first': r['missing'],
             'theorems_tightened': TIGHT.get(i, [])}
        note = NOTE.get(i) or r.get('note')
        if note: d['note'] = note
        f.write(json.dumps(d, ensure_ascii=False) + '\n'); n += 1
print(n)
