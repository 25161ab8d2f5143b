#!/bin/sh
# Regenerate the generated files.
cd "$(dirname "$0")/.." && python3 tools/gen_properties.py && python3 tools/gen_root.py && python3 tools/gen_manifest.py
