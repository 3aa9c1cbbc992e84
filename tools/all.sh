#!/bin/sh
# regenerate properties.jsonl, MANIFEST.json and the table in DESIGN.md
cd "$(dirname "$0")" && python3 props.py && python3 manifest.py && python3 design.py "$@"
