"""Turns the raw output of run.py into lines of seeded/LOG.jsonl:  tolog.py raw1.jsonl raw2.jsonl ... > LOG.jsonl"""
import json, sys

INST = {"U64": "LawfulId U64", "Ulid": "LawfulId Ulid"}

for f in sys.argv[1:]:
    for l in open(f):
        j = json.loads(l)
        claims = list(j["claims_unproved"])
        failed = list(j["declarations_failed"])
        kind = j["definition"].split(".")[0]
        failed = [x.replace("instance Verif.:", "instance " + INST.get(kind, "Verif.")) for x in failed]
        if any(x.startswith("instance") for x in failed) and not claims:
            k = "u64" if kind == "U64" else "ulid"
            claims = [f"C01_{k}_roundtrip", f"C02_{k}_decode_encode", f"C03_{k}_key_order", "and every store theorem at this id type"]
        if any("U64Gen" in x for x in failed) and not claims:
            claims = ["C24 (all theorems)"]
        print(json.dumps({
            "file": j["file"], "definition": j["definition"], "edit": j["edit"], "claim_broken": j["claim"],
            "result": "survived" if j["survived"] else "rejected by the model's own termination or bound proof" if j["model_error"] else "caught",
            "declarations_failed": failed, "theorems_failed": claims,
            "theorems_tightened": j.get("tightened", []), **({"note": j["note"]} if "note" in j else {})}, ensure_ascii=False))
