#!/bin/bash
# Regenerate lean/Verif.lean and MANIFEST.json
cd "$(dirname "$0")/.."
(find lean/Verif -name '*.lean' | sed 's#lean/##;s#/#.#g;s#.lean$##' | sort | sed 's/^/import /') > lean/Verif.lean
python3 tools/manifest.py
