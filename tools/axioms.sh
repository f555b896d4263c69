#!/bin/sh
# Print the axioms of every theorem listed in MANIFEST.json.
cd "$(dirname "$0")/../lean" || exit 1
python3 - > /tmp/axioms_check.lean <<'P'
import json
print("import Verif")
for c in json.load(open("../MANIFEST.json"))["claims"]:
    for t in c["theorems"]:
        print("#print axioms", t)
P
lake env lean /tmp/axioms_check.lean | sed 's/.*depends on axioms: //; s/.*does not depend on any axioms/none/' | sort | uniq -c
