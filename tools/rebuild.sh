#!/bin/sh
# regenerate properties, import list and manifest, and build
cd /verif/lean && find Verif -name '*.lean' | sort | sed 's#/#.#g; s#\.lean$##; s#^#import #' > Verif.lean
python3 /verif/tools/gen_properties.py
timeout 2400 lake build 2>&1 | grep -A25 error | head -c 5000
python3 /verif/tools/gen_manifest.py
grep -rnE "so""rry|#ex""it|#guard_m""sgs|native_dec""ide|bv_dec""ide|adm""it" Verif Verif.lean
true
