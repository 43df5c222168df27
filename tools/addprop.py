"""Append a property: reads one JSON object from stdin and appends it to properties.jsonl if the id is new."""
import json, sys, os
path = os.path.join(os.path.dirname(__file__), "..", "properties.jsonl")
ids = {json.loads(l)["id"] for l in open(path)}
for obj in json.load(sys.stdin):
    assert obj["id"] not in ids, obj["id"]
    assert set(obj) == {"id", "title", "statement", "quantifier", "why_tests_cant", "anchors"}
    open(path, "a").write(json.dumps(obj) + "\n")
