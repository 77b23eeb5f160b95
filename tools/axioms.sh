#!/bin/sh
# Prints the axioms every theorem named in MANIFEST.json depends on (run after `lake build` in lean/): the contents of AXIOMS.txt.
cd "$(dirname "$0")/../lean" || exit 1
t=$(mktemp /tmp/axXXXX.lean)
echo "import Verif" > "$t"
python3 - >> "$t" <<'P'
import json
for c in json.load(open("../MANIFEST.json"))["claims"]:
    for n in c["theorems"]: print("#print axioms", n)
P
lake env lean "$t" | tr '\n' ' ' | sed "s/ *'\(Verif[^']*\)' depends on axioms: \[\([^]]*\)\]/\1: \2\n/g; s/ *'\(Verif[^']*\)' does not depend on any axioms/\1: none\n/g"
rm -f "$t"
