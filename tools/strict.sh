#!/bin/sh
# Compile every module with autoImplicit off, to exclude misspelt names in statements.
# Needs a finished `lake build`; prints the errors, nothing if there are none.
cd "$(dirname "$0")/../lean" || exit 1
for f in $(find Verif -name '*.lean' | sort); do
  lake env lean -DautoImplicit=false "$f" 2>&1 | grep -E '^Verif.*error' | head -5
done
