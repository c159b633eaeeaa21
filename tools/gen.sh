#!/bin/sh
# regenerate lean/Verif.lean and MANIFEST.json
cd /verif/lean && find Verif -name '*.lean' | sort | sed 's/\.lean$//; s#/#.#g; s/^/import /' > Verif.lean
cd /verif && python3 tools/manifest.py
