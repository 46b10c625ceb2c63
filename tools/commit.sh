#!/bin/bash
# usage: tools/commit.sh MESSAGE: regenerate, build, commit, vcheck
set -e
cd /verif
python3 tools/props.py && python3 tools/manifest.py
(cd lean && lake build > /tmp/build.log 2>&1) || { grep -A20 error /tmp/build.log | head -40; exit 1; }
git add -A && git commit -qm "$1" && vcheck | tail -3
