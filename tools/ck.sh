#!/bin/sh
# build, regenerate manifest, commit, vcheck
cd /verif/lean && lake build > /tmp/ck.out 2>&1 || { grep -A8 "error" /tmp/ck.out | cut -c1-300 | head -40; exit 1; }
cd /verif && python3 tools/props1.py && python3 tools/manifest.py && git add -A && git commit -qm "$1" ; vcheck 2>&1 | cut -c1-600 | tail -15
