#!/bin/sh
# Prints the axioms of every property theorem (run after `lake build`).
cd "$(dirname "$0")/../lean" || exit 1
t=$(mktemp --suffix=.lean)
{ echo 'import Verif'
  python3 - <<'PY'
import json
for c in json.load(open('../MANIFEST.json'))['claims']:
    for t in c['theorems']: print('#print axioms', t)
PY
} > "$t"
lake env lean "$t"
rm -f "$t"
