"""Translate /repo/docs/Lc2ppiK.json to lean/Verif/Proofs/Lc2ppiK.lean.

The translation is literal: a text with a rational number or a decimal number becomes the exact
rational number, all other texts are copied.
"""
import json
from fractions import Fraction

src = json.load(open("/repo/docs/Lc2ppiK.json"), parse_float=Fraction, parse_int=int)
dist = src["distributions"][0]["decay_description"]


def num(x):
    x = Fraction(x)
    n = f"({x.numerator})" if x < 0 else str(x.numerator)
    return n if x.denominator == 1 else f"{n} / {x.denominator}"


def arg(x):
    n = num(x)
    return n if n.isdigit() or n.endswith(")") else f"({n})"


def weight(text):
    a, sign, b = text.split(" ")
    assert b.endswith("i")
    return f"({num(a)}, {num(('-' if sign == '-' else '') + b[:-1])})"


def tree(t):
    return f".id {t}" if isinstance(t, int) else f".seq {trees(t)}"


def trees(l):
    return "[" + ", ".join(tree(t) for t in l) + "]"


def text(s):
    assert "\\" not in s and '"' not in s
    return f'"{s}"'


def state(s):
    return f'⟨{s["index"]}, {text(s["name"])}, some {arg(s["spin"])}, {num(s["mass"])}⟩'


def vertex(v):
    out = f'type := {text(v["type"])}, node := {trees(v["node"])}'
    if "formfactor" in v:
        out += f', formfactor := some {text(v["formfactor"])}'
    out += ",\n      helicities := some [" + ", ".join(f"some {arg(h)}" for h in v["helicities"]) + "]"
    if "parity_factor" in v:
        out += f', parityFactor := some {text(v["parity_factor"])}'
    return "{ " + out + " }"


def fields(f, skip=()):
    return "[" + ", ".join(f"({text(k)}, {num(v)})" for k, v in f.items() if k not in skip) + "]"


lines = ["""import Verif.Spec.Serialization

/-!
The amplitude model of `Λc⁺ → p π⁺ K⁻` that comes with the code, `/repo/docs/Lc2ppiK.json`, as used in
`/repo/tests/io_serialization` and `/repo/docs`. Generated by `/verif/tools/lc2ppik.py`, do not edit.
Only the keys of format.py are taken over.
-/
namespace Verif.Serialization
open Verif Verif.ThreeBody
"""]
lines.append("/-- `kinematics` (docs/Lc2ppiK.json). -/\ndef lcKinematics : Kinematics where")
lines.append(f"  initialState := {state(dist['kinematics']['initial_state'])}")
lines.append("  finalState := [" + ",\n    ".join(map(state, dist["kinematics"]["final_state"])) + "]\n")
for i, c in enumerate(dist["chains"]):
    lines.append(f"/-- Chain {i} (docs/Lc2ppiK.json). -/\ndef lc{i} : ChainDefinition where")
    lines.append(f"  name := {text(c['name'])}")
    lines.append("  propagators := [" + ", ".join(
        f'⟨some {arg(p["spin"])}, {trees(p["node"])}, {text(p["parametrization"])}⟩'
        for p in c["propagators"]) + "]")
    lines.append("  vertices := [\n    " + ",\n    ".join(map(vertex, c["vertices"])) + "]")
    lines.append(f"  topology := {trees(c['topology'])}")
    lines.append(f"  weight := some {weight(c['weight'])}\n")
names = [f"lc{i}" for i in range(len(dist["chains"]))]
lines.append("/-- `chains` (docs/Lc2ppiK.json). -/\ndef lcChains : List ChainDefinition := [" + ", ".join(names[:13])
             + ",\n  " + ", ".join(names[13:]) + "]\n")
lines.append("/-- `functions` (docs/Lc2ppiK.json). -/\ndef lcFunctions : List FunctionDefinition := [")
items = []
for f in src["functions"]:
    ch = f.get("channels")
    channels = "none" if ch is None else "some [" + ",\n      ".join(fields(c) for c in ch) + "]"
    items.append(f'  ⟨{text(f["name"])}, {text(f["type"])}, {fields(f, ("name", "type", "channels"))},\n    {channels}⟩')
lines.append(",\n".join(items) + "]\n")
lines.append(f"""/-- The first item of `distributions` (docs/Lc2ppiK.json). -/
def lcDistribution : Distribution := ⟨lcKinematics, {trees(dist["reference_topology"])}, lcChains⟩

/-- docs/Lc2ppiK.json. -/
def lcModel : ModelDefinition := ⟨[lcDistribution], lcFunctions⟩

end Verif.Serialization""")
assert len(src["distributions"]) == 1
open("/verif/lean/Verif/Proofs/Lc2ppiK.lean", "w").write("\n".join(lines) + "\n")
