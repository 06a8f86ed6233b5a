#!/bin/bash
# Writes /verif/AXIOMS.txt: the axioms of every theorem named in MANIFEST.json.
python3 - <<'P' > /tmp/axioms_query.lean
import json
m=json.load(open('/verif/MANIFEST.json'))
print('import Verif')
for c in m['claims']:
    for t in c['theorems']: print('#print axioms',t)
P
cd /verif/lean && lake env lean /tmp/axioms_query.lean 2>&1 | tr '\n' ' ' | sed "s/ 'Scouter/\n'Scouter/g; s/  */ /g" > /verif/AXIOMS.txt
echo >> /verif/AXIOMS.txt
