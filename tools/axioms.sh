#!/bin/bash
# print every set of axioms used by a theorem of MANIFEST.json
python3 /verif/tools/gen_manifest.py >/dev/null; cd /verif/lean && lake env lean /tmp/axioms.lean | sed 's/^.*depends on axioms/axioms/' | sort | uniq -c
