#!/usr/bin/env python3
"""Writes /verif/MANIFEST.json from tools/claims.py (CLAIMS: list of (property, status, [theorems], note))."""
import json, os, sys
here = os.path.dirname(os.path.abspath(__file__))
sys.path.insert(0, here)
from claims import CLAIMS
json.dump({"claims": [dict(property=p, status=s, theorems=t, note=n) for p, s, t, n in CLAIMS]},
          open(os.path.join(here, "..", "MANIFEST.json"), "w"), indent=1)
