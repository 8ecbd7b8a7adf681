#!/bin/sh
# Evaluate the model with floating point numbers on inputs of the tests of pvfactors and compare
# with the values that those tests expect.  Usage: run.sh [pvfactors source directory]
set -e
here=$(cd "$(dirname "$0")" && pwd)
repo=${1:-/repo}
dir=$(mktemp -d)
cd "$dir"
cp "$here/Shim.lean.in" Shim.lean
cp "$here/Main.lean.in" Main.lean
cp "$here/lakefile.toml.in" lakefile.toml
python3 "$here/tofloat.py"
python3 "$here/data.py" "$repo"
lake build ev > build.log 2>&1 || { cat build.log; exit 1; }
./.lake/build/bin/ev
