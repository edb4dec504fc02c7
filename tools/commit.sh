#!/bin/sh
# build, regenerate the lists, commit; nothing is committed if the build fails
cd /verif/lean || exit 1
lake build > /tmp/commit-build.out 2>&1
rc=$?
grep -v "^trace\|✔" /tmp/commit-build.out | tail -40
[ $rc -eq 0 ] || exit $rc
cd /verif && python3 tools/mkprops.py && python3 tools/mkmanifest.py && git add -A && git commit -qm "$1" && git status --short | head
