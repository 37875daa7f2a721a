#!/bin/bash
# writes AXIOMS.txt: the axioms of every theorem named in MANIFEST.json (needs a finished `lake build`)
cd /verif/lean && python3 - <<'PY'
import json
ts=[t for c in json.load(open('/verif/MANIFEST.json'))['claims'] for t in c['theorems']]
open('/tmp/ax.lean','w').write("import Verif\n"+"\n".join("#print axioms "+t for t in dict.fromkeys(ts)))
PY
lake env lean /tmp/ax.lean 2>&1 | tr '\n' ' ' | sed "s/ *'\(Apk[^' ]*\)' /\n\1 /g" | sed '/^$/d' > /verif/AXIOMS.txt
