#!/bin/sh
# regenerate Verif.lean from the modules present
cd "$(dirname "$0")" && find Verif -name '*.lean' | LC_ALL=C sort | sed 's#/#.#g; s#\.lean$##; s#^#import #' > Verif.lean
