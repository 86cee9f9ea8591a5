#!/bin/bash
# Print the axioms of every theorem named in MANIFEST.json (run after `lake build` in /verif/lean).
cd "$(dirname "$0")/../lean" || exit 1
f=$(mktemp /tmp/axXXXX.lean)
{ echo "import Verif"; echo "open Rtbvh"; python3 - <<'P'
import json
seen=set()
for c in json.load(open('../MANIFEST.json'))['claims']:
    for t in c['theorems']:
        if t not in seen:
            seen.add(t); print('#print axioms',t)
P
} > $f
lake env lean $f
rm -f $f
