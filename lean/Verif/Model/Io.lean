import Verif.Model.Decay

/-!
Model of `/repo/src/ampform_dpd/io/__init__.py`: LaTeX of particles and decay nodes, and Markdown
tables.

Simplifications:
* Masses and widths are exact rationals (as in `Model/Decay.lean`), so that `1e3 * mass` is exact
  and `int` truncates the exact product. The `f` format of an integer is exact.
* The LaTeX rendering of `ThreeBodyDecay` (a tuple of chains, rendered by AmpForm) is not modelled; that of
  `DefinedExpression` and of indexed symbols is in `Model/IoExpression.lean`.
* `mute_ampform_warnings` is in `Model/Warnings.lean`, except for the level of a logger of AmpForm.
-/
namespace Verif.Io
open Verif Verif.ThreeBody

/-- `_render_jp` (io/__init__.py:98-106). `sp.latex` of an integer is its decimal text. -/
def renderJp (p : Particle) : String :=
  let spin :=
    if p.spin.den = 1 then toString p.spin.num
    else "\\frac{" ++ toString p.spin.num ++ "}{" ++ toString (p.spin.den : ℤ) ++ "}"
  match p.parity with
  | none => "J=" ++ spin
  | some parity => spin ++ "^" ++ (if parity < 0 then "-" else "+")

/-- `aslatex` of a `Particle` (io/__init__.py:73-80); `State` is a subclass of `Particle`. -/
def latexParticle (p : Particle) (withJp onlyJp : Bool) : String :=
  if onlyJp then renderJp p
  else if withJp then p.latex ++ "\\left[" ++ renderJp p ++ "\\right]"
  else p.latex

/-- `f"{x}"` of a rational: SymPy's `str`. Used at io/__init__.py:51, 219. -/
def ratText (q : ℚ) : String :=
  if q.den = 1 then toString q.num else toString q.num ++ "/" ++ toString (q.den : ℤ)

/-- `render_arrow` (io/__init__.py:48-51). -/
def renderArrow : Option LS → String
  | none => "\\to"
  | some ls => "\\xrightarrow[S=" ++ ratText ls.S ++ "]{L=" ++ toString ls.L ++ "}"

/-- `aslatex` of an `IsobarNode` (io/__init__.py:46-60), and of its children that are `State`
objects (io/__init__.py:73-80). -/
def latexNode (withJp onlyJp : Bool) : Node → String
  | .leaf o => latexParticle o.toP withJp onlyJp
  | .isobar parent child1 child2 interaction =>
    let latex := latexParticle parent.toP withJp onlyJp ++ " " ++ renderArrow interaction ++ " " ++
      latexNode withJp onlyJp child1 ++ " " ++ latexNode withJp onlyJp child2
    match parent with
    | .state _ => latex
    | .particle _ => "\\left(" ++ latex ++ "\\right)"

/-- `aslatex` of a `ThreeBodyDecayChain` (io/__init__.py:68-70). -/
def latexChain (c : Chain) (withJp onlyJp : Bool) : String := latexNode withJp onlyJp c.decay

/-- `_determine_item_type` of a sequence (io/__init__.py:140-155), given the types of the items
and `issubclass`. The iteration order of the set only matters for the text of the message. -/
def determineItemType {T : Type} [DecidableEq T] (issubclass : T → T → Bool) (types : List T) :
    Py T :=
  if types.length < 1 then .error .valueError
  else
    let existing := types.dedup
    let maximal := existing.filter fun typ =>
      !(existing.any fun other => decide (typ ≠ other) && issubclass typ other)
    match maximal with
    | [] => .error .stopIteration
    | [itemType] => .ok itemType
    | _ => .error .valueError

/-- The classes of the objects given to `as_markdown_table`: the ones the function knows, and
others, which are unrelated to these and to each other (io/__init__.py:113-121, 143). -/
inductive Cls where
  | particle
  | state
  | chain
  | other (name : String)
  deriving DecidableEq, Repr

/-- `issubclass` for these classes (decay.py:38-39: `class State(Particle)`). -/
def Cls.issubclass (a b : Cls) : Bool := decide (a = b) || (decide (a = .state) && decide (b = .particle))

/-- An object given to `as_markdown_table`, or an item of a sequence given to it (io/__init__.py:109,
138-143). -/
inductive Item where
  | obj (o : Obj)
  | chain (c : Chain)
  | other (cls : String)

/-- `type(item)` (io/__init__.py:143). -/
def Item.cls : Item → Cls
  | .obj (.particle _) => .particle
  | .obj (.state _) => .state
  | .chain _ => .chain
  | .other n => .other n

/-- `_create_markdown_table_row` (io/__init__.py:218-219). -/
def tableRow (items : List String) : String := "| " ++ " | ".intercalate items ++ " |\n"

/-- `_create_markdown_table_header` (io/__init__.py:212-215). -/
def tableHeader (columnNames : List String) : String :=
  tableRow columnNames ++ tableRow (columnNames.map fun _ => "---")

/-- `int(1e3 * x)` (io/__init__.py:175-176, 201-202): truncation towards zero. -/
def toMeV (x : ℚ) : ℤ := if x < 0 then -⌊-(1000 * x)⌋ else ⌊1000 * x⌋

/-- The digits, last one first, with a comma after every three of them except at the end (the `,` of the
formats at io/__init__.py:175-176, 201-202). -/
def insertCommas : List Char → List Char
  | a :: b :: c :: d :: t => a :: b :: c :: ',' :: insertCommas (d :: t)
  | l => l

/-- `f"{n:,.0f}"` of an integer (io/__init__.py:175-176, 201-202). -/
def withCommas (n : ℤ) : String :=
  (if n < 0 then "-" else "") ++
    String.ofList (insertCommas (toString (n.natAbs : ℤ)).toList.reverse).reverse

/-- The row of a particle (io/__init__.py:170-180). -/
def resonanceRow (renderIndex : Bool) (o : Obj) : List String :=
  let rowItems := [
    "`" ++ o.toP.name ++ "`",
    "$" ++ o.toP.latex ++ "$",
    "$" ++ latexParticle o.toP false true ++ "$",
    withCommas (toMeV o.toP.mass),
    withCommas (toMeV o.toP.width)]
  if renderIndex then
    (match o with
      | .state s => toString s.index
      | .particle _ => " ") :: rowItems
  else rowItems

/-- `isinstance(i, State)` (io/__init__.py:166). -/
def isState : Obj → Bool
  | .state _ => true
  | .particle _ => false

/-- `_as_resonance_markdown_table` (io/__init__.py:158-181). -/
def resonanceTable (items : List Obj) : String :=
  let columnNames := ["name", "LaTeX", "$J^P$", "mass (MeV)", "width (MeV)"]
  let renderIndex := items.any isState
  let columnNames := if renderIndex then "index" :: columnNames else columnNames
  items.foldl (fun src o => src ++ tableRow (resonanceRow renderIndex o)) (tableHeader columnNames)

/-- The row of a chain (io/__init__.py:196-208). -/
def chainRow (c : Chain) : List String :=
  let rowItems := [
    "$" ++ c.resonance.toP.latex ++ " \\to " ++ latexParticle c.product1.toParticle false false ++
      " " ++ latexParticle c.product2.toParticle false false ++ "$",
    "$" ++ latexParticle c.resonance.toP false true ++ "$",
    withCommas (toMeV c.resonance.toP.mass),
    withCommas (toMeV c.resonance.toP.width)]
  let rowItems := match c.outgoingLs with
    | some ls => rowItems ++ [toString ls.L]
    | none => rowItems
  match c.incomingLs with
  | some ls => rowItems ++ [toString ls.L]
  | none => rowItems

/-- `_as_decay_markdown_table` (io/__init__.py:184-209). -/
def decayTable (chains : List Chain) : String :=
  let columnNames := ["resonance", "$J^P$", "mass (MeV)", "width (MeV)"]
  let columnNames :=
    if chains.any (fun c => c.outgoingLs.isSome) then
      columnNames ++ ["$L_\\mathrm{dec}^\\mathrm{min}$"] else columnNames
  let columnNames :=
    if chains.any (fun c => c.incomingLs.isSome) then
      columnNames ++ ["$L_\\mathrm{prod}^\\mathrm{min}$"] else columnNames
  chains.foldl (fun src c => src ++ tableRow (chainRow c)) (tableHeader columnNames)

/-- The argument of `as_markdown_table`: a `ThreeBodyDecay`, a sequence, or an object that is
neither (io/__init__.py:109-113). -/
inductive TableArg where
  | decay (d : Decay)
  | sequence (items : List Item)
  | object (x : Item)

/-- Use of an item as a particle: attribute access on another object raises (io/__init__.py:170-177). -/
def Item.asObj : Item → Py Obj
  | .obj o => .ok o
  | _ => .error .attributeError

/-- Use of an item as a chain: attribute access on another object raises (io/__init__.py:196-207). -/
def Item.asChain : Item → Py Chain
  | .chain c => .ok c
  | _ => .error .attributeError

/-- `as_markdown_table` (io/__init__.py:109-121) with `_determine_item_type`
(io/__init__.py:138-139). Iteration over an object that is not a sequence raises `TypeError`:
`Particle`, `State` and `ThreeBodyDecayChain` are not iterable. -/
def asMarkdownTable : TableArg → Py String
  | .decay d => .ok (decayTable d.chains)
  | .sequence items => do
    let itemType ← determineItemType Cls.issubclass (items.map Item.cls)
    if itemType = .particle ∨ itemType = .state then
      return resonanceTable (← items.mapM Item.asObj)
    else if itemType = .chain then
      return decayTable (← items.mapM Item.asChain)
    else .error .notImplementedError
  | .object x =>
    if x.cls = .particle ∨ x.cls = .state then .error .typeError
    else if x.cls = .chain then .error .typeError
    else .error .notImplementedError

end Verif.Io
