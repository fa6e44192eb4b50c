#!/bin/bash
# Regenerates the derived files, builds, commits and checks; stops at the first failure.
set -eo pipefail
cd "$(dirname "$0")/.."
python3 tools/imports.py
python3 tools/props.py
python3 tools/manifest.py
(cd lean && lake build 2>&1 | grep "error\|Build" | cut -c1-400)
(cd lean && lake build >/dev/null 2>&1)
python3 tools/design.py
git add -A
git commit -qm "$1"
vcheck 2>&1 | tail -1 | cut -c1-900
