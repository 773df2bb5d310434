#!/bin/bash
# usage: commit.sh "message": regenerate the manifest and commit everything in /verif
cd /verif && python3 tools/manifest.py && git add -A && git commit -qm "$1" && git log --oneline | head -1
