import Verif.Model.Py

/-!
Model of the LaTeX representation of the expression classes in `/repo/src/ampform_dpd/dynamics/__init__.py` and
`/repo/src/ampform_dpd/io/serialization/amplitude.py`.

The decorator `@unevaluated` is part of AmpForm. As documented there, an attribute `_latex_repr_` that is a string is
formatted with `str.format`, with the LaTeX of the arguments as keyword arguments, and one that is a method is called.

Simplifications:
* The LaTeX that SymPy prints for an argument is a text that is given.
* Of `str.format` only fields that consist of a name are modelled; there are no others in these classes.
-/
namespace Verif.LatexRepr
open Verif

/-- `template.format(**kwargs)` of Python, on the characters of the template (as used for
dynamics/__init__.py:34-36, 70, 95, 116, 159, 210 and io/serialization/amplitude.py:365, 379-381, 397-399). The second
argument is the name of the field that has been read so far (in reverse), or `none` outside of a field. -/
def strFormat (kwargs : PyDict String String) : Option (List Char) → List Char → Py (List Char)
  | none, [] => .ok []
  | some _, [] => .error .valueError
  | none, '{' :: '{' :: t => do return '{' :: (← strFormat kwargs none t)
  | none, '}' :: '}' :: t => do return '}' :: (← strFormat kwargs none t)
  | none, '{' :: t => strFormat kwargs (some []) t
  | none, '}' :: _ => .error .valueError
  | none, c :: t => do return c :: (← strFormat kwargs none t)
  | some _, '{' :: _ => .error .valueError
  | some name, '}' :: t => do
    let value ← PyDict.get kwargs (String.ofList name.reverse)
    return value.toList ++ (← strFormat kwargs none t)
  | some name, c :: t => strFormat kwargs (some (c :: name)) t

/-- A class with the decorator `@unevaluated` and a string as `_latex_repr_`: its fields and that string
(dynamics/__init__.py:22-36). -/
structure Unevaluated where
  fields : List String
  template : String

/-- The LaTeX of an instance, given the LaTeX of its arguments (dynamics/__init__.py:22-36; the method is created by
AmpForm). -/
def Unevaluated.latex (c : Unevaluated) (args : List String) : Py String := do
  return String.ofList (← strFormat (PyDict.ofItems (c.fields.zip args)) none c.template.toList)

/-- `RelativisticBreitWigner` (dynamics/__init__.py:22-36). -/
def relativisticBreitWigner : Unevaluated where
  fields := ["s", "mass0", "gamma0", "m1", "m2", "angular_momentum", "meson_radius", "phsp_factor"]
  template := "\\mathcal{{R}}_{{{angular_momentum}}}\\left({s}, {mass0}, {gamma0}\\right)"

/-- `BreitWignerMinL` (dynamics/__init__.py:54-70). -/
def breitWignerMinL : Unevaluated where
  fields := ["s", "decaying_mass", "spectator_mass", "resonance_mass", "resonance_width", "child2_mass",
    "child1_mass", "l_dec", "l_prod", "R_dec", "R_prod", "phsp_factor"]
  template := "\\mathcal{{R}}^\\mathrm{{BW}}_{{{l_dec},{l_prod}}}\\left({s}\\right)"

/-- `BuggBreitWigner` (dynamics/__init__.py:87-95). -/
def buggBreitWigner : Unevaluated where
  fields := ["s", "m0", "Γ0", "m1", "m2", "γ"]
  template := "\\mathcal{{R}}^\\mathrm{{Bugg}}\\left({s}\\right)"

/-- `FlattéSWave` (dynamics/__init__.py:108-116). -/
def flatteSWave : Unevaluated where
  fields := ["s", "m0", "widths", "masses1", "masses2"]
  template := "\\mathcal{{R}}^\\mathrm{{Flatté}}\\left({s}\\right)"

/-- `ChannelArguments` (dynamics/__init__.py:150-159). -/
def channelArguments : Unevaluated where
  fields := ["s", "m0", "width", "m1", "m2", "angular_momentum", "meson_radius"]
  template := "\\Gamma^\\text{channel}\\left({{s}}, {{m0}}, {{width}}\\right)"

/-- `SimpleBreitWigner` (dynamics/__init__.py:205-210). -/
def simpleBreitWigner : Unevaluated where
  fields := ["s", "mass", "width"]
  template := "\\mathcal{{R}}^\\mathrm{{BW}}\\left({s}; {mass}, {width}\\right)"

/-- `HelicityRecoupling` (io/serialization/amplitude.py:359-365). -/
def helicityRecoupling : Unevaluated where
  fields := ["λa", "λb", "λa0", "λb0"]
  template := "\\mathcal{{H}}^\\text{{helicity}}\\left({λa},{λb}|{λa0},{λb0}\\right)"

/-- `ParityRecoupling` (io/serialization/amplitude.py:372-381). -/
def parityRecoupling : Unevaluated where
  fields := ["λa", "λb", "λa0", "λb0", "f"]
  template := "\\mathcal{{H}}^\\text{{parity}}\\left({λa},{λb}|{λa0},{λb0},{f}\\right)"

/-- `LSRecoupling` (io/serialization/amplitude.py:388-399). -/
def lsRecoupling : Unevaluated where
  fields := ["λa", "λb", "l", "s", "ja", "jb", "j"]
  template := "\\mathcal{{H}}^\\text{{parity}}\\left({λa},{λb}|{l},{s},{ja},{jb},{j}\\right)"

/-- `BreitWigner._latex_repr_` (dynamics/__init__.py:193-202); `isInteger` says whether the angular momentum is an
`sp.Integer`. -/
def latexBreitWigner (s mass width angularMomentum : String) (isInteger : Bool) : String :=
  let functionSymbol := "\\mathcal{R}^\\mathrm{BW}"
  let arg := "\\left(" ++ s ++ "; " ++ mass ++ ", " ++ width ++ "\\right)"
  if isInteger then functionSymbol ++ "_{L=" ++ angularMomentum ++ "}" ++ arg
  else functionSymbol ++ "_{" ++ angularMomentum ++ "}" ++ arg

/-- `MultichannelBreitWigner._latex_repr_` (dynamics/__init__.py:142-147), given the texts for `s` and for the widths of
the channels. -/
def latexMultichannel (s : String) (widths : List String) : String :=
  let latex := "\\mathcal{R}^\\mathrm{BW}_\\mathrm{multi}\\left("
  let latex := latex ++ (s ++ "; ")
  let latex := latex ++ ", ".intercalate widths
  latex ++ "\\right)"

end Verif.LatexRepr
