#!/bin/sh
# Print the axioms every claimed theorem depends on, and how many theorems use each set.
cd "$(dirname "$0")/../lean" || exit 1
{ echo "import Verif"; python3 -c "
import json
for c in json.load(open('../MANIFEST.json'))['claims']:
    for t in c['theorems']: print('#print axioms', t)"; } > /tmp/AllAxioms.lean
lake env lean /tmp/AllAxioms.lean | tr '\n' ' ' | sed "s/'LibSub/\n'LibSub/g" | sed "s/^'[^']*' //" | sort | uniq -c
