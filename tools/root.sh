#!/bin/sh
# writes lean/Verif.lean: all modules, sorted
cd "$(dirname "$0")/../lean" && find Verif -name '*.lean' | sed 's/\.lean$//; s/\//./g' | sort | sed 's/^/import /' > Verif.lean
