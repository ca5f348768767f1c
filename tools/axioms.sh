#!/bin/bash
# Writes AXIOMS.txt: the axioms each property theorem depends on (needs a built project).
cd "$(dirname "$0")/.."
python3 - <<'PY'
import json
names=[t for c in json.load(open('MANIFEST.json'))['claims'] for t in c['theorems']]
open('/tmp/axioms.lean','w').write('import Verif\n'+''.join('#print axioms %s\n'%n for n in names))
PY
(cd lean && lake env lean /tmp/axioms.lean) | tr '\n' ' ' | sed "s/ '/\n'/g" | sed 's/  */ /g;s/ $//' > AXIOMS.txt
echo >> AXIOMS.txt
