#!/bin/sh
# Prints the axioms every property theorem depends on (run after `lake build`).
cd "$(dirname "$0")/../lean" || exit 1
T=$(mktemp /tmp/axXXXX.lean)
echo "import Verif" > $T
grep -hoE '^theorem C[0-9]{2,}_[A-Za-z0-9_]+' Verif/Props/*.lean | sed 's/theorem /#print axioms Gbdt./' >> $T
lake env lean $T
