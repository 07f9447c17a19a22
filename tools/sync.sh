#!/bin/sh
# Regenerate Verif.lean, MANIFEST.json and Audit.lean from the sources.
set -e
cd "$(dirname "$0")/.."
python3 - <<'PY'
import glob, os
os.chdir('lean')
mods = []
for o in ['Basic', 'Model', 'Spec', 'Lemmas', 'Props']:
    mods += sorted(f[:-5].replace('/', '.') for f in glob.glob(f'Verif/{o}/*.lean'))
open('Verif.lean', 'w').write(''.join(f'import {m}\n' for m in mods) + 'import Verif.Audit\n')
PY
python3 tools/manifest.py > MANIFEST.json
python3 tools/audit.py
