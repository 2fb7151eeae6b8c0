#!/bin/sh
# Print the axioms of every theorem named in MANIFEST.json.
cd "$(dirname "$0")/../lean" || exit 1
{ echo "import Verif"; echo "open Pdf Pdf.Props"
  python3 - <<'P'
import json
for c in json.load(open("../MANIFEST.json"))["claims"]:
    for t in c["theorems"]: print("#print axioms", t)
P
} > /tmp/axioms_check.lean
lake env lean /tmp/axioms_check.lean
