#!/bin/bash
# Regenerates the property list, the manifest and the import list, then builds.  Fails if the build fails.
set -e -o pipefail
cd "$(dirname "$0")"
python3 gen_properties.py
python3 gen_manifest.py
./gen_verif.sh
cd ../lean
lake build 2>&1 | { grep -v '^✔' || true; } | tail -20
