# Formal model of ComPWA/ampform-dpd in Lean 4

The code in `/repo/src/ampform_dpd` is (almost) pure: it reads decay descriptions
and builds SymPy expressions, dictionaries and texts. The model is a set of
total Lean functions that mirror the Python functions branch by branch, with
exceptions as values (`Py α = Except PyErr α`), dictionaries as
insertion-ordered association lists (`PyDict`) and SymPy expressions as syntax
trees that are evaluated over the real or complex numbers. The two parts with
state (`DynamicsConfigurator` and the caches of `lambdify`) are state machines.

## Layout

| directory | content |
|---|---|
| `lean/Verif/Model/` | the model of the code; each definition cites file and lines and says what it simplifies |
| `lean/Verif/Spec/`  | small specifications that do not use the model's functions (geometry of an event, triangle rule, Wigner matrices, Markdown table, uncached call, ...) |
| `lean/Verif/Proofs/` | helper lemmas |
| `lean/Verif/Props/` | property theorems `Cxx_...`, one file per area, each with an `example` that meets its hypotheses |
| `properties.jsonl`, `MANIFEST.json` | the properties, and the theorems that prove them |
| `seeded/LOG.jsonl` | wrong programs tried in a scratch copy and the theorems that reject them |
| `tools/manifest.py` | writes `MANIFEST.json` from the theorem names |

A theorem whose name ends in `_partial` proves a property under a hypothesis that
the English statement does not have. Where a property is false of the code, a
theorem `..._fails` (or one named after the reason) gives a concrete witness.

## Trusted base

* Lean 4.33.0's kernel, and its elaborator as far as it turns the text of
  definitions and statements into terms.
* Axioms: every theorem depends on a subset of `propext`, `Classical.choice` and
  `Quot.sound`. There are no axioms of our own, no `sorry`, no `native_decide`
  and no `bv_decide`.
* Mathlib's definitions that occur in statements: `Real`, `Complex`,
  `InnerProductGeometry.angle`, `Real.arccos`, `Matrix`, `List.Perm`,
  `List.Sorted`, `Multiset`, `Finset` sums.
* The reading of the Python code in `lean/Verif/Model/`, and of the documented
  behaviour of the libraries: Python's `sorted`, `set`, `dict` and
  `functools.cache`; attrs (validators, `order=True`, equality); SymPy (`doit`,
  `xreplace`, `Symbol` identity by name and assumptions); AmpForm (`PoolSum`,
  `FormFactor`, `EnergyDependentWidth`, `BreakupMomentum...`, `cache_to_disk`);
  QRules (`Topology`, `FrozenTransition`).

### What is modelled

| code | model | functions |
|---|---|---|
| `spin.py`, `_attrs.py` | `Model/Spin` | all |
| `angles.py` | `Model/Angles`, `Model/Sym`, `Model/REval` | all |
| `decay.py` | `Model/Decay` | all classes, validators, accessors and functions |
| `__init__.py` | `Model/Builder`, `Model/Configurator`, `Model/Expr`, `Model/ExprEval` | `AmplitudeModel`, the builder with all its methods; `DynamicsConfigurator`; `DefinedExpression`; `create_mass_symbol_mapping`; `formulate_invariants`; `_get_best_reference_subsystems`; cleanup of summations |
| `dynamics/__init__.py`, `dynamics/builder.py` | `Model/Dynamics`, `Model/LatexRepr` | all lineshape classes, their LaTeX, `BreitWignerBuilder`, its factories |
| `adapter/qrules.py` | `Model/Qrules`, `Model/QrulesContainers`, `Model/QrulesIterables`, `Model/Order` | all except `load_particles`; the constructor of `ReactionInfo` (qrules) is a parameter |
| `io/__init__.py` | `Model/Io`, `Model/IoExpression` | `aslatex` of particles, nodes, chains and defined expressions (given the rendering of SymPy); the rendering of indexed symbols; Markdown tables |
| `io/cached.py` | `Model/Cached`, `Model/CachedConcurrent` | `lambdify` with both caches, also step by step for several threads and processes; `doit` and `unfold` only call other packages |
| `io/serialization/*.py` | `Model/Serialization`, `Model/SerialDynamics`, `Model/SerialAmplitude`, `Model/Text` | all |
| `docs/index.ipynb` (`formulate_gaussian`), `docs/lc2pkpi.ipynb` (`formulate_breit_wigner`) | `Model/DocsBuilders` | the two builders; the rest of the notebooks is not modelled |
| `docs/jpsi2ksp.ipynb`, `docs/xib2pkk.ipynb` (`compute_sub_intensity`, definitions and range for the Dalitz plot, free and fixed parameters, table of decays) | `Model/SubIntensity`, `Model/DalitzGrid`, `Model/FreeParameters`, `Model/DistinctDecays` | the function and the four cells; the rest of the notebooks (sampling, fits, plots) is not modelled |
| `docs/comparison/jpsi2phipipi.ipynb`, `docs/comparison/jpsi2pipipi.ipynb` (`compute_sub_intensities`, `_get_symbol_values`, `_simplify`) | `Model/SubIntensities`, `Model/Simplify` | these functions and the helpers of the first; the rest of the notebooks is not modelled |
| `docs/serialization.ipynb` (`formulate_bugg_breit_wigner`, `to_latex`, range and labels of the Dalitz plot, intensity functions of two variables), `docs/Lc2ppiK.json` | `Model/SerialBugg`, `Model/DalitzGrid`, `Model/PlotLabels`, `Model/TwoVariables`, `Proofs/Lc2ppiK` | the builder, the file and these cells; the rest of the notebook is not modelled |

### What is not modelled

* Floating-point rounding: masses, widths and couplings are exact rationals, the
  evaluation of expressions is over the reals or complex numbers.
* SymPy's automatic simplification. Syntax trees are compared by value (or by the
  symbols in them), so that properties hold for every value-preserving
  simplification. Structural properties (which symbols occur) are about the
  expression before simplification, which can only remove symbols.
* Numerical definitions of Wigner d-functions, Clebsch-Gordan coefficients,
  Blatt-Weisskopf form factors, energy-dependent widths and breakup momenta: they
  are arbitrary functions of the interpretation, with a hypothesis where a
  property needs one (C31: representation property, for which
  `Spec/Wigner`/`Proofs` construct an instance for every spin; C38: width at the
  pole; C41, C59, C67: covariance under change of units).
* Text rendering by SymPy, except of rational numbers; `aslatex` of
  `ThreeBodyDecay` (a sequence, rendered by AmpForm); the level of AmpForm's logger set by `mute_ampform_warnings`;
  that `simplify_latex_rendering` sets an attribute of SymPy (the function it
  installs is modelled); the particle database (`load_particles`).
* `warnings.warn`: the warnings of the builder are modelled in Model/Warnings.lean (C109), as a second version of the
  functions that warn, whose results are proved equal to those of the first; those of the serialization as a flag.
* Texts in JSON files are represented by the numbers they denote (`Model/Text` models how
  they are read, except underscores, infinities and `nan`); a missing required key is outside the model unless the field is an `Option`.

## How each property is modelled and proved

* **C01-C07 (spin.py, _attrs.py)**: exact rationals instead of `float`/`Decimal`
  (all values the code meets are dyadic and exact). The `while` loop of `arange`
  is a step function iterated with fuel; termination, divergence and contents are
  proved by induction on the number of iterations. C05 is a counting argument by
  induction over spins.
* **C08-C15 (angles.py)**: the functions return syntax trees (`RExpr`) over the
  symbols the code creates; the trees are evaluated over the reals. The
  specification is a physical event: momenta in a real inner product space with
  energies `sqrt(m^2+p^2)`. C08, C10, C12 identify the value with
  `InnerProductGeometry.angle`. C11, C14 use plane geometry. C15 goes from the
  Kibble function alone, without assuming an event; `Angles.event_of_dalitz`
  constructs an event for each point.
* **C16-C21 (decay.py)**: nodes are an inductive tree, constructors are functions
  to `Except`; exact characterisation of acceptance and of the exception.
* **C22-C24 (configurator, DefinedExpression)**: state machine; refinement to a
  map by induction over operation lists.
* **C25-C36 (builder)**: `formulate` is modelled as a function to a record of
  ordered dictionaries of syntax trees (`Expr`) with a `doit` (unfolding of
  `PoolSum`, evaluation of `KroneckerDelta`) and a complex-valued evaluation.
  Loops over helicities and chains are folds; the theorems are proved by
  induction over these. C31 assumes only that `d^j` is a one-parameter group of
  orthogonal matrices with `d^j(2 pi) = (-1)^(2j)`, and a separate file
  constructs such a family for every spin.
* **C72 (closed models)**: the symbols of the syntax trees are collected by small
  functions in `Spec/Closure`; `C72_closed` bounds them for every decay and every
  lineshape that is itself closed, `C72_breit_wigner` shows that those of
  `BreitWignerBuilder` are. `C72_value` and `C72_evaluable` say what this is good
  for: inside the Dalitz region the model can be evaluated from its parameters and
  the Mandelstam variables (two of them, `C72_two_invariants`) alone.
* **C76-C78 (couplings)**: consequences of the value of a formulated model (C29, C30)
  that users rely on in fits: switching chains off, the quadratic form in the
  couplings, and the formula for spinless particles. Proved by linear algebra on
  the sum over chains, for every decay.
* **C79 (recoupling)**: the LS model and the helicity model are formulated for two
  decays related by a map `base` from LS chains to helicity chains; the sum over
  LS chains is regrouped by `base`. The lineshapes must agree, so builders with
  L-dependent form factors are outside the claim. The relation between the coefficients is needed only for helicities
  that are projections of the spins and for which the Wigner function does not vanish.
* **C80 (exchange)**: `Exchanged a b` relates two kinematic points and `mirror` two
  chains; `C80_helicity_angle` gives `theta -> pi - theta` from the definitions of the
  angles, `C80_exchanged_value` sums over the chains (a permutation of the list).
  The only fact about `d^J` is `d^J_00(pi - x) = (-1)^J d^J_00(x)`, proved for the
  family of `Proofs/WignerExists`.
* **C81 (division by zero)**: `NoZeroDivision ι η e` says that no denominator in the
  expression `e` is zero, for all values of the summation indices (`Spec/Division.lean`).
  `C81_formulated` and `C81_deserialized` reduce it to the lineshapes (unfolding of sums
  and substitution keep it), `C81_breit_wigner`, `C81_serial_breit_wigner` and
  `C81_multichannel` are equivalences for the lineshapes. The denominators inside
  `FormFactor` and `EnergyDependentWidth` belong to AmpForm and are not covered.
* **C82 (renumbering)**: `renumberDecay` gives every state of the decay its new ID and
  `Renumbered` relates the two kinematic points (`Spec/Relabel.lean`). The expressions of
  the angles are equal up to the names of masses and Mandelstam variables (27 + 9 cases of
  the angle functions); the sums over helicities and subsystems are reindexed. The
  reference subsystem is given explicitly: without it, `formulate` chooses one by the order
  of the IDs, and by C31 the choice can matter for half-integer spins. Transpositions of two
  IDs are not covered (compare C80).
* **C83 (unit of mass)**: `Rescaled t` relates the same point in two units
  (`Spec/Units.lean`). A dimension inference on the angle expressions (proved sound for the
  partial evaluation, all 36 + 3 angles are dimensionless) and C41's on the lineshapes give
  the factor of the intensity. False for the default Breit-Wigner builder, whose decay form
  factor takes the square of a Mandelstam variable: `C83_default_fails` shows a complete
  model whose intensity is not multiplied by any power of the unit; the partial theorem
  leaves that form factor out.
* **C84 (from transitions to a model)**: `OneDecay` (Spec/Pipeline) says what transitions of one decay
  satisfy; `amplitudeModel` is the sequence of calls of a user. `C84_decay` combines relabelling (C43,
  C44), conversion and filters (C45-C49) into a `Standard` decay with the outer states of the
  transitions. `C84_pipeline` adds the registry (C22), lineshapes (C42), `formulate` (C36), closure
  (C72) and positivity (C30). `C84_needs_couplings` and `C84_other` are the error branches.
* **C85 (order and repetition of transitions)**: equality of decay objects for lists with the same
  elements. Relabelling acts on each transition alone; the sorted set of converted transitions
  is determined up to `==` (C45); every later stage (grouping, LS minimum, conversion to chains,
  sorting) gives equal results for transitions that are `==` (Proofs/QrulesOrder).
* **C86 (weights of deserialized models)**: the amplitudes (C60) are linear in the values of the weight
  symbols, because built-in lineshapes contain other symbols only; the intensity (C70) is
  the squared norm of a linear map. For weights in the file, both models are compared chain by chain,
  and the parameter dictionaries key by key (`C86_defaults`).
* **C87 (spinless deserialized models, agreement of the two front-ends)**: C70 and C60 at the only helicity
  combination; the chains of `to_decay` are a permutation of the chain definitions if these differ
  (`chains_perm`), so that C78 for the builder gives the same sum. If the initial state has spin the two
  front-ends differ (C56).
* **C69 (LaTeX of decay chains)**: the text is a list of words separated by spaces: names, arrows and brackets
  at the words. Reading it from the left gives the tree back (induction on the node). The conditions on the names are in
  `PlainLatex`; a witness shows that spaces are a problem.
* **C93 (parity)**: the Clebsch-Gordan coefficients are defined by the Racah formula (`Spec/ClebschGordan.lean`) and
  their reflection symmetry is proved by reversing the sum (`clebschGordan_neg`); that of the Wigner functions is
  proved from the matrix definition (`wignerD_reflect`). Substituting `lambda_R -> -lambda_R` in each chain, the signs of the two
  vertices combine to the sign of the whole decay, as parity is conserved at both. Helicity couplings are covered by the
  same proof, with the symmetry of their values as a hypothesis (`ConservesParity`).
* **C94 (orthogonality of the LS factors)**: orthonormality and completeness of the Clebsch-Gordan coefficients (Racah
  formula) are proved from binary forms (`Proofs/CgForms.lean`, `Proofs/CgOrtho.lean`): the coefficients of
  `(xv - yu)^n` times powers are, up to weights, the Clebsch-Gordan coefficients, and the invariant scalar product of the
  forms gives orthogonality. Exchange of two spins gives `sqrt((2L+1)/(2J+1)) <L 0 S m|J m> = ± <J m S -m|L 0>`
  (`Proofs/CgSymm.lean`), so both Clebsch-Gordan coefficients of the factor are orthogonal matrices. The product is
  square by counting, so one orthogonality gives the other.
* **C95 (completeness of the LS basis)**: the LS coefficients are the inverse transformation (C94) at both vertices;
  C79 gives equality of the models. `VanishingWigner` is the convention that `d^j_{m m'} = 0` if `m'` is not a projection
  of `j`.
* **C96 (order)**: `Spec/PyOrder.lean` defines Python's `<` on numbers, strings, `None`, tuples and attrs instances,
  and the chains and transitions as such values. The model sorts by lexicographic keys with a separate comparability
  test; `Proofs/PyOrder.lean` shows field by field that both agree with `<`.
* **C97 (parity filter and helicity couplings)**: the factors change by `(-1)^(L+s1+s2-J)` under reversed helicities (C93),
  and the matrix of the factors is invertible (C94); so the symmetry of the helicity couplings forces the other LS couplings
  to zero. `C94_truncated` uses the factor of the coupling with the highest `L`, which is orthogonal to all others.
* **C98 (no interference in projections)**: orthogonality of the Wigner d-functions over `sin x dx` is proved from the
  matrix definition (`Proofs/WignerOrtho.lean`, ladder relations and integration by parts). Alignment of a single
  subsystem is a unitary rotation of the amplitudes and drops out. On the line `sigma_k = const` the cosine of the decay angle is an affine
  function of `sigma_j`, and the interior of the Dalitz plot is an interval (`Proofs/DalitzSlice.lean`). The lineshape
  must not change along the line; this holds for all dynamics builders of the package, as they only use `sigma_k`.
* **C99 (optical theorem)**: all lineshapes are `1/(m² - s - i m W)` up to real factors (C37, C39, C40, C68); imaginary part and
  modulus are compared. The phase is an arccosine whose argument is monotone in `s`. Form factors, widths and momenta
  of AmpForm are hypotheses (real above threshold, imaginary below).
* **C101 (reference topology of serialized models)**: `withReference` (Spec/SerialAmplitude.lean) replaces the
  topology. Only `formulate_aligned_amplitude` reads it, so amplitudes and parameters are literally the same
  (`C101_same`). The alignment is changed by orthogonal matrices as in C31, whose proof is for any set of subsystems
  (`intensity_change_ref`). Custom lineshapes must not read the reference topology (`IgnoresReference`).
* **C103 (serialized spinless decays, any vertices)**: extends C87. All sums over helicities have one term and there is
  no alignment. `C103_spinless` is for any vertices, `C103_coherent` for vertices of helicity zero in a chain of any
  topology, `C103_no_contribution` for the others.
* **C104 (unit of mass of serialized models)**: as C83, with the symbols of serialized models (`SerialDim`,
  Spec/SerialUnits.lean). `C104_homogeneous` is for any lineshapes, `C104_dimensions` finds the dimensions of the
  built-in ones. False if a production vertex has a form factor (see C59): `C104_production_fails` shows a complete
  model whose intensity is not multiplied by any power of the unit; the partial theorem excludes these.
* **C105 (numbers in texts)**: `Model/Text` follows CPython's `complex(text)` and SymPy's `Rational(text)` character by
  character, after the replacements of `_get_weight`. The specification is a grammar with values (`ComplexText`,
  `RationalText`, Spec/Text.lean); reader and grammar agree in both directions, so every text has at most one value.
* **C106 (coordinates of the Dalitz plot)**: partial evaluation over ℝ of the expression for the angle (`RExpr.eval`), and
  an identity that ties its square to the Kibble function and the product of the Källén functions. The specification has its own Kibble
  function (Spec/DalitzCoordinate.lean). Monotonicity and existence follow from the angle being the arccos of an affine
  function of the Mandelstam variable (`slice_thresholds`).
* **C107 (smoothness)**: expressions as functions of a point of any real normed space (`SmoothPoint`, `SmoothValue`,
  Spec/Smooth.lean). Inside the Dalitz plot no argument of a root vanishes and no argument of arccos is ±1. The intensity
  is the explicit superposition of C30; Wigner functions are finite sums of powers of sine and cosine
  (`contDiff_wignerD`). Lineshapes are a hypothesis, except for the constant-width Breit-Wigner (`C107_breit_wigner`):
  AmpForm's form factors and energy-dependent widths are not modelled.
* **C108 (interference)**: a model for a part of the chains is the model of a builder with fewer chains (`PartOf`,
  Spec/Interference.lean) or of a file with fewer chains. All are sums over helicities of squared moduli of one sum
  over the parts (`part_value`, `serial_part_value`); the identity is by induction over the parts, the inequalities are
  those of a Hilbert space.
* **C110 (exchange of IDs)**: as C82, for the exchange `1 ↔ 2` (Spec/Swap.lean). The values of the angles are compared
  (not the expressions, whose factors come in a different order). `d(-x)` and `d(π-x)` are given by the symmetries of the
  Wigner d-functions (Proofs/WignerMirror.lean); the signs of the helicities cancel between the subsystem amplitudes and
  the alignment, and a sign per chain remains that the couplings have to absorb. The example has a chain with each sign.
* **C111 (couplings)**: the symbols of a chain are listed in Spec/Couplings.lean. The keys of `parameterDefaults` come
  from the closed form of `formulate` (`formulate_inv`); independence from the injectivity of the names; the value without
  a resonance from C76 and C77. That coefficients are more general than couplings is shown by 1, 1, 0, 0 for the four
  combinations of two production and two decay vertices. A LaTeX that contains commas or braces does no harm here, since
  all names of a model have the same form.
* **C112 (LaTeX of lineshapes and recouplings)**: `str.format` is modelled character by character (Model/LatexRepr.lean);
  Spec/LatexRepr.lean says what a format string is for (`Piece`, `writeTemplate`, `fill`) and `C112_format` that the former
  does the latter. That AmpForm's `@unevaluated` formats a string `_latex_repr_` in this way is assumed. What is missing
  (`_partial`) is `ChannelArguments`, for which the claim is false (`C112_channel_arguments_fail`).
* **C113 (what the intensity depends on)**: `SameQuantumNumbers` and `alterDecay` (Spec/QuantumNumbers.lean) list what must agree
  and what may change. The closed form of the intensity (`full_value`) is compared term by term, as a product of the couplings and a
  rest that depends on the quantum numbers only (`kernel_same`). The examples are a decay with other names, parities and masses, and
  one with two resonances of the same quantum numbers.
* **C114 (which model files can be formulated)**: `CompleteDefinition` (Spec/SerialComplete.lean) lists what a chain
  definition and the function definitions it refers to must contain; by inversion of every stage of `formulate`
  (the loop over helicities and chains is entered because spins are not negative) and C59, C60, C73 in the other
  direction. The kinematics and the readings of the vertices are hypotheses (their errors: C52, C53, C54).
* **C115 (upper bounds)**: the alignment of one subsystem is a product of real orthogonal matrices (group property of the actual
  Wigner functions), so it keeps `Σ_λ |A^k_λ|²`; the rest is the triangle inequality in `ℂ^n` over subsystems and chains
  and `|d^J| ≤ 1`. For LS couplings the sum of the squared Clebsch-Gordan factors of a vertex is 1 (C94) or, if the
  coupling is not allowed, 0. `chainStrength`, `lsCoupling` and `RealAngles` are in Spec/Bound.lean. For widths that depend on
  the energy and for form factors there is only the bound in terms of the values of the lineshapes. For serialized models
  (Props/SerialBound.lean) the couplings of the vertices fix the helicities of the final state and nothing fixes that of the
  initial state, hence the factor `2 s0 + 1`.
* **C116 (projections of serialized models)**: the orthogonality of C98, for the value of the amplitudes of C60. It needs that
  chains that contribute for the same helicities have the same `λR` and `λi - λj` (`CommonHelicities`); the general statement is
  false (`C116_interference`), see below. `C116_same_helicities` gives the intensity without this restriction.
* **C117 (domain of `formulate_recoupling`)**: case analysis of the function; the specification (Spec/RecouplingErrors.lean) only
  uses the fields of the vertex. Indices are integers, with Python's meaning of negative ones (`AtIndex`).
* **C118 (complex conjugation)**: on the specification of the value (`chainValue`, `serialValue`, `intensityOver`): rotations,
  signs and Clebsch-Gordan factors are real for real angles and nonnegative spins and `L`, so conjugate couplings and lineshapes
  give conjugate amplitudes. The two sets of values are two interpretations with the same angles and functions (`SameRotations`).
* **C119 (boundary of the Dalitz plot)**: by C106 the angle expression has a value on the boundary, 0 or π. `d^j` is the identity
  at 0 and, by the symmetry `d^j(π-x)`, anti-diagonal at π; so every term of `chainValue` and `serialValue` that violates the
  selection rule is zero. For integer spin `d^J_00` is 1 at 0 and `(-1)^J` at π.
* **C120 (closed Dalitz region)**: `DalitzRegion` (Spec/Closed.lean) is `DalitzInterior` with `kibble ≤ 0` for `< 0`. The identity
  `1 - cos² = -kibble · positive / positive` behind C15 gives `|cos| ≤ 1` with equality exactly at `kibble = 0`; acos is continuous
  on [-1, 1], so all angles are, and the intensity by the sums of C70/C31. C31, C72, C75, C84 and C101 are stated for this closed
  region. Points where a pair mass reaches a threshold are left out: there the code divides 0 by 0 and the model has no value.
* **C121 (Wigner's formula, Legendre polynomials)**: the d-functions are constructed as matrices on homogeneous polynomials
  (Proofs/WignerExists.lean); their coefficients are computed with the binomial theorem and compared with Wigner's formula
  (Spec/WignerFormula.lean), which is what SymPy's `Rotation.d` documents. With Leibniz' rule, `d^J_00` is the derivative in
  Rodrigues' formula. The cosine of the angle comes from the value of the acos expression on the closed region (C120).
* **C122 (published Λc model)**: `tools/lc2ppik.py` translates docs/Lc2ppiK.json to the value `lcModel` of the model's
  `ModelDefinition` (Proofs/Lc2ppiK.lean; all decimal numbers exact). The builder of docs/serialization.ipynb is in
  Model/SerialBugg.lean. The hypotheses of C60, C70, C75 and C114 are checked chain by chain in the kernel, so these theorems are
  not vacuous for the one file users start from. `to_latex` of the notebook meets the hypothesis of `C122_weights`
  (`C122_docs_weights`); it is injective for all names without parentheses and backslashes. C60_weight_values and C60_own_weights hold for all builders passed to
  `formulate` whose parameters are nonnegative symbols (`NonnegativeParameters`), as those of the documentation.
* **C123 (iterators as arguments)**: an argument annotated as `Iterable` is a sequence or an iterator; every loop over an iterator
  uses up the elements it reads (Model/QrulesIterables.lean). `calls f n x` (Spec) are the results of `n` calls with the same
  object. The statement is false of `filter_min_ls`, which loops three times: `C123_filter_fails` for all transitions it
  accepts in a sequence; `C123_filter_partial` for the others.
* **C124 (three-body decays only)**: the IDs of a decay and of serialized kinematics are finite sets (Spec/StateIds.lean). Both
  `formulate` functions look up the states 0 to 3 (`KeyError`) and unpack the spins of all states to four values (`ValueError`);
  the theorems hold for all decays and files, not only those with well-formed kinematics.
* **C125 (custom builders of the documentation)**: the two builder functions are modelled line by line (Model/DocsBuilders.lean).
  Chains are those of C42 (`PlainChain`, `NumberedFinalState`); `C125_model_closed` is C72 with these lineshapes. The hypotheses
  of `C125_min_l_pole` on form factors and width are at the pole only.
* **C126 (sub-intensities)**: `compute_sub_intensity` of two notebooks on a dictionary of parameters (Model/SubIntensity.lean);
  the numerical function is a parameter of the definition, in the theorems the value of the formulated model with couplings
  looked up by `str(Indexed)` (Spec/SubIntensity.lean). `C126_contains` reduces it to C76 and C77; `C126_mentions` says which
  chains keep their couplings, `C126_mentions_coefficients` which keep their coefficients (there, the text `\mathrm{K}` is also
  part of the coefficients of a resonance `K`: `C126_braces_fail`). `update_parameters` and `str(Indexed)` are those of TensorWaves and SymPy and part of the model.
* **C127 (selected resonances)**: as C126, for `compute_sub_intensities` of the two comparisons with AmpForm, which sets only the
  production couplings to zero (Model/SubIntensities.lean). Models are those without coefficients (`use_coefficients=False`), as
  in the notebooks; the names of coefficients do not contain `production`, so nothing would be left out (`C127_coefficients`).
* **C128 (redundant parameters)**: for two models of the same decay, `C128_products` compares the values chain by chain
  (`chainValue` of Spec/Amplitude.lean) when the products of lineshape and couplings agree up to a common phase. The
  redundancies are corollaries; `C128_vertices_exist` and `C128_coefficients` show that the other values of the parameters exist.
* **C129 (Dalitz grid)**: the cells of the notebooks that compute the definitions and the range for a plot (Model/DalitzGrid.lean,
  with the simultaneous replacement of `xreplace`). `C129_definitions` is about the dictionary, `C129_data` and
  `C129_intensity` about data completed with it, `C129_evaluable` shows that such data exist for all points of the Dalitz plot.
  `C129_serial_definitions`, `C129_serial_intensity` and `C129_serial_range` (Props/SerialGrid.lean) are the same for
  deserialized models, with the masses of the model file. `C129_range` characterises the unwidened range by the points of `DalitzInterior`, not by the thresholds. One insertion is
  enough, because the definition of the third variable refers to the other two only. Floats are exact numbers in the model.
* **C130 (free and fixed parameters)**: the cell of the notebooks that makes the numerical intensity function
  (Model/FreeParameters.lean; the test for `production` and `decay` is on the printed text of the key). `C130_split` is about the two
  dictionaries, `C130_couplings` says which keys they have, `C130_value` gives the value of the expression and `C130_symbols` what it
  refers to. `OrdinaryLineshape` (Spec/FreeParameters.lean) excludes lineshapes with Wigner functions, indexed parameters or
  parameters with the assumptions of the angles; `C130_breit_wigner` proves it for the builders of the package.
  `C130_coefficients` is the case `use_coefficients=True`, where the recipe leaves no free parameter. `lambdify` itself is not
  modelled: the function is taken to evaluate the expression.
* **C131 (labels of the Dalitz plot)**: `get_decay_products` and `sigma_labels` of docs/serialization.ipynb
  (Model/PlotLabels.lean). `C131_chain` compares with the decay products of the chains, `C131_products` is for all three IDs,
  `C131_errors` for all integers and `C131_labels` relates the text of the label to the four-momenta of `Spec/Kinematics.lean`.
* **C132 (functions of two variables)**: `intensity_expr` and `intensity_funcs` of docs/serialization.ipynb
  (Model/TwoVariables.lean). The replaced angles stay symbols with definitions beside the expression. `C132_arguments` bounds the
  arguments, `C132_value` compares with the model at `Spec.atDefaults`, `C132_parameters` shows when models meet
  the condition on the names of parameters, and `C132_published` is for docs/Lc2ppiK.json with the builders of the notebook. The assertion of the notebook that there are exactly two arguments is not a
  property of all models (a constant intensity has none), so that only the upper bound is claimed.
* **C133 (table of decays)**: `get_decay_identifier` and the dictionary made with it in docs/xib2pkk.ipynb
  (Model/DistinctDecays.lean). `C133_table` and `C133_last` characterise the chains in the table by `Spec.SameDecay`, by lookups in
  the dictionary; `C133_states` uses the validity of the decay; `C133_identical` is a valid decay with identical particles for which
  chains of two subsystems are merged. The LaTeX of the table is not part of this property.
* **C134 (simplified expressions)**: `_get_symbol_values` and `_simplify` of the comparisons, with the dictionary `__EXPRS` as a state
  (Model/Simplify.lean). Expressions are of any type; `Sound` (Spec/Simplify.lean) lists what is assumed of SymPy's `xreplace`,
  `trigsimp` and `free_symbols`, `FaithfulHash` of `get_readable_hash`. By an invariant of the dictionary over all sequences of calls:
  every entry has the value that its call computes without earlier results. `C134_collision_fails` shows that the assumption on the
  hashes is needed; `C134_again` needs none. The cache on disk of `cached.xreplace` is that of AmpForm and not part of the model.
* **C109 (warnings)**: a writer monad that records the calls of `warnings.warn` (Model/Warnings.lean), with the filter
  list of Python reduced to the actions ignore/error/always/default and a regular expression in which only the point is
  special. `C109_result` ties it to the builder without warnings; the texts are given in Spec/Warnings.lean.
* **C100 (renumbering of serialized models)**: `renumberModel` (Spec/SerialRelabel.lean) gives every ID in the definition
  its new value. Readings, states and vertices follow; the angles are those of C82, for both orders of the decay
  products. The lineshapes are compared symbol by symbol (`SameLineshapeParameters`). Propagators and vertices must be
  for two of the states 1, 2, 3 (`PairNodes`), since `to_mass_symbol` picks the first remaining ID otherwise.
* **C92 (LaTeX of defined expressions and indexed symbols)**: the rendering of the parts is a parameter; the text is
  split uniquely at newlines and at `&`, or at `_{` and commas. Keyword arguments are dropped unless the expression is
  its own unfolded form; this is how the code is written.
* **C91 (agreement of the two front-ends for the decay of a particle of spin 0)**: amplitude by amplitude; chain
  definitions with the same chain are collected (`chains_of`), and the sums over chains and over chain
  definitions are exchanged. The alignment is the same function of the amplitudes in both models (C30, C70).
* **C88 (relabelling and permutation commute)**: the rank function is strictly monotone on the edge IDs, so
  keys of relabelled topologies compare in the same way (`mapIds_le_iff`), and `sorted`/`set` commute
  with relabelling (`pySorted_map`, `pySet_map`); relabelling conjugates the exchange of two edges.
* **C89 (nested arguments)**: arguments as a nested inductive type; induction over the nesting
  (`Arg.induction`). The specification only has the leaves and the nesting of an argument. What is
  assumed of the constructor of `ReactionInfo` is `ReactionClass`.
* **C90 (mutable transitions)**: exact condition by counting IDs; `C90_moved` is a witness. This affects
  the initial facts of a `ProblemSet`, which have no state for the resonance.
* **C75 (closed deserialized models)**: the same specification, for every
  `ModelDefinition`; the invariant of the loop over helicities and chains is that a
  stored amplitude contains only angles, kinematic symbols and keys of the parameter
  dictionary of its chain.
* **C37-C42, C67, C68 (dynamics)**: evaluation in the complex numbers; form
  factors, energy dependent width and breakup momentum are arbitrary functions.
  C41, C59, C67 use a small dimension inference on the syntax trees, proved sound
  for changes of units (`C41_dimension_sound`).
* **C43-C50 (qrules adapter)**: transitions as records of finite maps, Python's
  `<` on attrs classes as a lexicographic key plus a comparability test (mixed
  `None`/value raises `TypeError`); sortedness and uniqueness by the theory of
  `mergeSort`. C46/C47 by induction over the grouping loop. C48 as orbit under
  swaps. C49 composes C43-C47 with the constructors.
* **C51-C62, C70, C71, C73 (serialization)**: JSON definitions as typed records and
  inductive nodes; loops are recursive functions, theorems by induction over the
  lists of vertices, chains, channels and helicity tuples. C60, C70, C71 carry the
  theorems of the builder over to deserialized models.
* **C63-C65, C74 (io)**: strings as lists of characters; a parser-free
  specification of what a Markdown table is; injectivity of decimal texts.
  C64 is proved for every decidable class hierarchy.
* **C66 (cached)**: state machine with memory, disk, process restarts and a hash;
  invariant by induction over the history. The disk cache is modelled as its
  documentation says (one file per hash, written completely or not at all).
* **C102 (concurrent cache)**: the same code one step at a time (look into memory, look for the
  file, create, open, close, store and return), for any number of threads, each in a process, that
  share the directory. A schedule is any list of calls, steps, kills of processes and removals of
  files; theorems are invariants by induction over it. How AmpForm writes a file is not part of this
  repository, so there are two variants: a finished file is put in place in one step, or the file is
  opened (which empties it) and closed. If two threads have the same file open, the schedule decides
  whether it can be loaded afterwards; that bytes of two writers mix to another function that can be
  loaded is excluded. Steps inside `functools.cache` are atomic, as they are under the lock of the
  interpreter. `C102_alone` shows that a single thread does what the model of C66 does.

## Where the code and the English expectation disagree

Found by proving; each line names the theorem with the witness if there is one.

*Spin.* `create_spin_range` of a negative spin is empty, and validation accepts
negative spins (`C07_negative_spin`). `generate_ls_couplings` does not require
that `J+s1+s2` is an integer (`C04_ls_unphysical`) and its default `max_L=3`
truncates (`C05_default_truncates`).

*Angles.* The guard for reversed pairs in `formulate_scattering_angle` compares a
set with tuples and never fires (C09). The scattering angle is the one with the
direction opposite to the spectator (C08). The three theta-hat angles add up to
2 pi (C11). `formulate_zeta_angle(7, 2, 2)` returns 0 without validation.

*Decay.* A nested isobar node with a `State` as parent is accepted as decay
product (C16). Keys of `states` are not compared with state indices (C17). The
tie-break of the best reference subsystem relies on the iteration order of a set;
`C21_best_reference_any_order` shows what holds for each order.

*Builder.* Dynamics are looked up by resonance name, so that of two chains with
the same name the second one never gets its own dynamics
(`C23_shadowed_chain_ignored`). What does hold for every decay and every history of
registrations is `C23_amplitude_by_name`: each chain has the lineshape that was
registered last for the *first* chain with its resonance name. With half-integer initial spin the intensity
depends on the reference subsystem (`C31_half_integer_depends`). If all spins are
zero an out-of-range `reference_subsystem` is not rejected. The intensity with
cleaned-up outer sums is computed and discarded (C34). Coefficients are named after
the resonance only, so exchanged chains share them; with resonances of even and odd
spin the intensity is then not symmetric in identical particles
(`C80_exchange_fails`).

*Dynamics.* The form factor of the decay vertex receives sigma^2 instead of sigma
(`C41_decay_vertex_fails`, `C41_unit_dependence`). Both Flatte widths are
normalised with the second channel's momentum (C40). `R_res` is shared by all
resonances.

*QRules.* `int(parity)` raises `TypeError` for undefined parity (C50).
`min_ls=(False, False)` is truthy. A mixture of `None` and LS couplings makes
sorting raise `TypeError` (`C45_mixed_none_raises`). With an empty node selection
`filter_min_ls` merges transitions (`C46_empty_selection_fails`), and the
componentwise minimum need not be an input (`C47_not_a_member`). The production
coupling is the first one in insertion order of `interactions`
(`C49_coupling_order_fails`). The spectator is the smaller of the two IDs leaving
node 0 (`C49_resonance_before_spectator`). Only the first transition decides
whether IDs are normalised.

*Serialization.* The amplitude of a deserialized model does not depend on the
initial helicity, there is no conservation of its projection
(`C56_independent_of_initial`, `C56_conservation_fails`), and the Wigner function
of flipped parity terms uses unflipped helicities (`C56_flipped_wigner_fails`).
One consequence is observable in mass spectra: chains with different spins and
different helicities of the resonance interfere after integration over the decay
angle (`C116_interference`); the spin projection of the initial state would forbid it.
LS vertices raise (`C57_ls_vertex_fails`). Production form factors receive `m0`
instead of its square and `sigma_k` as a mass (`C59_production_vertex_fails`), so that
the intensity depends on the unit of mass in more than a factor (`C104_production_fails`).
`R_res` and channel masses are shared between resonances (`C58_radius_fails`,
`C58_channel_mass_fails`), masses in function definitions are overwritten by state
masses (`C58_state_masses`). Weights of equally named resonances in different
subsystems collide (`C60_weight_collision_fails`). The topology of a chain is not
compared with its vertices (`C52_topology_mismatch_fails`).

*IO.* Decay tables with chains of which some have LS couplings are misaligned
(`C63_mixed_fails`); a bar in a name breaks its row (`C63_bar_fails`); masses are
truncated, not rounded (C74). `as_markdown_table` of a single particle or chain
raises `TypeError`, not `NotImplementedError` (`C64_not_a_sequence`).
`ChannelArguments` cannot be rendered as LaTeX: `KeyError` (`C112_channel_arguments_fail`); `LSRecoupling` has the
symbol `\text{parity}` (`C112_recouplings`).
`functools.cache` identifies `1`, `1.0` and `True` (`C66_equal_values_fails`).
If the disk cache writes files in place, a process that is killed while it writes makes all later
calls with these arguments raise (`C102_killed_while_writing`).

`filter_min_ls` is annotated to take any iterable, but loops over it three times: for a generator it returns an empty
tuple without an exception, for all transitions it would accept in a list (`C123_filter_fails`).

*Builder of docs/lc2pkpi.ipynb.* The mass of the initial state is in the model twice: as `m0` in the angles, with a default
value from the decay, and as `m_{…}` in the lineshapes. Changing one of them in a fit or a plot leaves the other as it is
(`C125_parent_mass_twice`).

*Sub-intensities in docs/jpsi2ksp.ipynb and docs/xib2pkk.ipynb.* `compute_sub_intensity` tests whether the LaTeX of a resonance
is part of the name of a parameter. It therefore also keeps resonances whose LaTeX contains it (`K^*` and `K^*_2`):
`C126_alone_fails`, `C126_contains`. If the function raises, the couplings stay zero (`C126_exception`).

*Published model.* In docs/Lc2ppiK.json the first channel of `L1405_Flatte` has its masses in the opposite order of the
node `[3, 1]`; this has no effect since the masses of the states override them (`C122_masses`). The flipped helicities of
C56 concern this model: `C122_flipped_wigner`, `C122_wigner_fails`. The builder `formulate_bugg_breit_wigner` of the
documentation passes the masses of pion and kaon in the order of the node `[2, 3]`, so the Adler zero of the scalar kaons is at
`m_π² - m_K²/2 < 0` instead of `m_K² - m_π²/2` (`C122_bugg`, `C122_adler_zero_fails`).

## Conformance with the project's tests

`lean/Verif/Conformance/` replays assertions of /repo/tests in the model with `#guard`. These are tests of the model (that it
computes what the project's own tests expect of the code), not proofs, and no claim in MANIFEST.json refers to them.

## Wrong programs

`seeded/LOG.jsonl` has one line per attempt: the edited definition, the edit, the
claims it breaks, the declarations that failed and what was tightened. A mutant
that survives is either one whose English claims stay true (then it is not
listed) or leads to a stronger theorem (field `tightened`).
