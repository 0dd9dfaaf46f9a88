#!/bin/bash
# build and show errors compactly
cd /verif/lean && lake build $@ 2>&1 | grep -v "^trace" | grep -v "^✔" | cut -c1-400 | head -${N:-80}
