#!/bin/sh
# build one module and show only errors
cd /verif/lean && lake build "$@" 2>&1 | grep -v "^⚠\|^✔\|linter\|^  \[apply\]\|Hint\|^$\|^trace\|^warning.*unused"
