{"id": "C01", "title": "Spin projections are exactly -j..j", "statement": "create_spin_range(j) returns, for every integer or half-integer j >= 0, exactly the 2j+1 projections -j, -j+1, ..., j in ascending order, without duplicates and symmetric under sign change.", "quantifier": "every non-negative integer or half-integer spin (unbounded)", "why_tests_cant": "infinitely many spins; doctest checks j=3/2 only", "anchors": ["src/ampform_dpd/spin.py:create_spin_range", "src/ampform_dpd/spin.py:create_rational_range", "src/ampform_dpd/spin.py:arange"]}
{"id": "C02", "title": "Rational ranges contain exactly the unit steps below to+1/2", "statement": "create_rational_range(a,b) contains exactly the numbers a+n (n natural) with a+n < b+1/2, ascending; if b-a is a non-negative multiple of 1/2 every element lies in [a,b].", "quantifier": "all rational endpoints", "why_tests_cant": "unbounded pairs of endpoints", "anchors": ["src/ampform_dpd/spin.py:create_rational_range"]}
{"id": "C03", "title": "arange terminates exactly for a positive step (or empty interval)", "statement": "arange(x1,x2,delta) yields finitely many values and stops if delta>0 or x1>=x2; for delta<=0 and x1<x2 it never stops.", "quantifier": "all start, stop and step values and every number of loop iterations", "why_tests_cant": "non-termination cannot be observed by a test", "anchors": ["src/ampform_dpd/spin.py:arange"]}
{"id": "C04", "title": "LS couplings are exactly the triangle-allowed ones", "statement": "generate_ls_couplings(J,s1,s2,max_L) returns precisely the pairs (L,S), sorted and without duplicates, with L integer, 0<=L<=max_L, S stepping by one from |s1-s2| to s1+s2 and |L-S|<=J<=L+S. For physical spins (J+s1+s2 integer) these are exactly the allowed couplings up to max_L, and all of them if max_L>=J+s1+s2; for unphysical spins it returns couplings that do not exist.", "quantifier": "all half-integer spins and all max_L", "why_tests_cant": "unbounded spins and L", "anchors": ["src/ampform_dpd/spin.py:generate_ls_couplings"]}
{"id": "C05", "title": "LS and helicity bases have the same size", "statement": "If J+s1+s2 is an integer and max_L >= J+s1+s2, the number of couplings from generate_ls_couplings equals the number of helicity pairs (l1,l2) in create_spin_range(s1) x create_spin_range(s2) with |l1-l2| <= J.", "quantifier": "all half-integer spins J, s1, s2", "why_tests_cant": "combinatorial identity over unbounded spins", "anchors": ["src/ampform_dpd/spin.py:generate_ls_couplings", "src/ampform_dpd/spin.py:create_spin_range"]}
{"id": "C06", "title": "Parity filter keeps exactly the parity-conserving couplings", "statement": "filter_parity_violating_ls keeps, in order and with multiplicity, exactly the (L,S) with eta0 = eta1*eta2*(-1)^L; it is idempotent, and for parities +-1 the two choices of eta0 split the input into two complementary lists.", "quantifier": "every list of couplings and every parity assignment", "why_tests_cant": "unbounded lists", "anchors": ["src/ampform_dpd/spin.py:filter_parity_violating_ls"]}
{"id": "C07", "title": "Spin validation accepts exactly integers and half-integers", "statement": "Constructing a Particle, State or LSCoupling succeeds iff the (exactly converted) spin is an integer or half-integer; in particular negative spins are accepted, and such a particle has an empty list of projections.", "quantifier": "all rational spin values", "why_tests_cant": "infinite domain", "anchors": ["src/ampform_dpd/_attrs.py:assert_spin_value", "src/ampform_dpd/_attrs.py:to_rational", "src/ampform_dpd/decay.py:Particle", "src/ampform_dpd/decay.py:LSCoupling"]}
{"id": "C08", "title": "Scattering angle is the physical angle in the isobar rest frame", "statement": "For every event, the expression of formulate_scattering_angle(i,j), evaluated at the event's masses and Mandelstam variables, is the angle, in the rest frame of (ij), between particle i and the direction OPPOSITE to the spectator k, so that the acos argument lies in [-1,1].", "quantifier": "all valid ID pairs, all masses and all momenta (non-zero in that frame)", "why_tests_cant": "continuum of events", "anchors": ["src/ampform_dpd/angles.py:formulate_scattering_angle"]}
{"id": "C09", "title": "Swapped decay products give the supplementary scattering angle", "statement": "formulate_scattering_angle never raises NotImplementedError: it raises ValueError exactly for IDs outside {1,2,3} or equal IDs, and on the other reversed pairs (2,1),(3,2),(1,3) it returns an expression whose value is pi minus that of the ordered pair whenever the Mandelstam variables satisfy their sum rule.", "quantifier": "all integer ID pairs, all real masses and Mandelstam variables with the sum rule", "why_tests_cant": "continuum of kinematic points; intended guard is never reached", "anchors": ["src/ampform_dpd/angles.py:formulate_scattering_angle"]}
{"id": "C10", "title": "Theta-hat is the physical angle between i and j in the mother frame", "statement": "For every event formulate_theta_hat_angle(i,j) evaluates to plus (for (3,1),(1,2),(2,3)) or minus (reversed) the angle between the momenta of i and j in the rest frame of the decaying particle, and to 0 for i=j; it raises ValueError exactly for IDs outside {1,2,3} and is antisymmetric.", "quantifier": "all IDs, masses, momenta", "why_tests_cant": "continuum", "anchors": ["src/ampform_dpd/angles.py:formulate_theta_hat_angle"]}
{"id": "C11", "title": "The three theta-hat angles close to a full turn", "statement": "For every event with non-zero momenta theta_hat_1(2)+theta_hat_2(3)+theta_hat_3(1) = 2 pi (not 0).", "quantifier": "all masses and momenta", "why_tests_cant": "continuum; not tested at all", "anchors": ["src/ampform_dpd/angles.py:formulate_theta_hat_angle"]}
{"id": "C12", "title": "Zeta angles are physical alignment angles", "statement": "For every event and every ID combination, formulate_zeta_angle(i,j,k) with i in {1,2,3} evaluates to 0 or to plus/minus the angle, in the rest frame of particle i, between the two reference momenta selected by j and k (momentum of the decaying particle if the ID equals i, of the sibling otherwise).", "quantifier": "all 27 ID triples, all masses, all momenta", "why_tests_cant": "continuum", "anchors": ["src/ampform_dpd/angles.py:formulate_zeta_angle"]}
{"id": "C13", "title": "Zeta symmetry rules and totality", "statement": "formulate_zeta_angle terminates for all integer IDs, never raises for rotated state in 0..3 and subsystems in 1..3, satisfies zeta^i_k(k)=0, zeta^i_k(0)=zeta^i_k(i), zeta^i_j(k)=-zeta^i_k(j), and defines symbols that are different for different ID triples.", "quantifier": "all integer ID triples", "why_tests_cant": "unbounded ids, recursion depth", "anchors": ["src/ampform_dpd/angles.py:formulate_zeta_angle"]}
{"id": "C14", "title": "Zeta sum rule", "statement": "zeta^i_j(k) = zeta^i_j(i) + zeta^i_i(k) for cyclic (i,j,k) for every event; more generally zeta^i_j(l)+zeta^i_l(k) = zeta^i_j(k) for all j,l,k and final-state i, whereas for i=0 it holds only modulo 2 pi.", "quantifier": "all ID combinations, masses and momenta", "why_tests_cant": "tests check one numeric point to 14 digits", "anchors": ["src/ampform_dpd/angles.py:formulate_zeta_angle", "tests/test_angles.py:test_formulate_zeta_angle_sum"]}
{"id": "C15", "title": "Angles are well defined on the whole Dalitz region", "statement": "For all positive masses and all Mandelstam variables in the interior of the physical region (Kibble function negative), every acos argument produced by the angle functions lies strictly between -1 and 1 and no denominator vanishes.", "quantifier": "all masses and Mandelstam points of the physical region", "why_tests_cant": "continuum", "anchors": ["src/ampform_dpd/angles.py"]}
{"id": "C16", "title": "Chain constructor accepts exactly well-formed three-body chains", "statement": "ThreeBodyDecayChain(node) succeeds iff node is an isobar node with a State parent, one isobar child and one State child, whose isobar child decays to two States (or nodes whose parent is a State) and all four IDs differ; afterwards no accessor raises, final_state is sorted by ID and is the set {decay products, spectator}. A non-State decay product raises AttributeError, never the intended TypeError. The LS coupling of a node can be given as None, as LSCoupling or as tuple (L, S), which is stored with these values; a tuple of another length or with a spin that is not half-integer raises ValueError, anything else TypeError.", "quantifier": "all node trees", "why_tests_cant": "unbounded trees", "anchors": ["src/ampform_dpd/decay.py:ThreeBodyDecayChain", "src/ampform_dpd/_attrs.py:to_ls"]}
{"id": "C17", "title": "Decay constructor invariants", "statement": "ThreeBodyDecay(states, chains) succeeds iff every chain has initial state states[0] and its final-state set equals the non-zero-index states; then, with at least one chain, the initial state has index 0 and there are exactly three final states, and each chain's spectator and decay products partition them. Keys of the states mapping are not checked against state indices.", "quantifier": "all state mappings and chain tuples", "why_tests_cant": "unbounded inputs", "anchors": ["src/ampform_dpd/decay.py:ThreeBodyDecay"]}
{"id": "C18", "title": "Subsystem selection partitions the chains", "statement": "get_subsystem(k) never raises on a valid decay, returns exactly the chains with spectator k in order, is idempotent, warns iff there are none; the selections over the existing subsystem IDs partition the chains.", "quantifier": "all decays and IDs", "why_tests_cant": "unbounded chains", "anchors": ["src/ampform_dpd/decay.py:ThreeBodyDecay.get_subsystem", "src/ampform_dpd/decay.py:_get_subsystem_ids"]}
{"id": "C19", "title": "find_chain returns the first chain with that resonance name", "statement": "find_chain(name) returns the first chain in order whose resonance has that name and raises KeyError iff no chain has it.", "quantifier": "all decays and names", "why_tests_cant": "unbounded", "anchors": ["src/ampform_dpd/decay.py:ThreeBodyDecay.find_chain"]}
{"id": "C20", "title": "Decay product IDs are the cyclic completion", "statement": "get_decay_product_ids(k) succeeds iff k in {1,2,3}, and (i,j,k) is then an even permutation of (1,2,3).", "quantifier": "all integers", "why_tests_cant": "unbounded integers", "anchors": ["src/ampform_dpd/decay.py:get_decay_product_ids"]}
{"id": "C21", "title": "Default reference subsystem has most chains", "statement": "The default reference subsystem is an existing subsystem with the maximal number of chains, the smallest ID on ties; ValueError iff the decay has no chains.", "quantifier": "all decays", "why_tests_cant": "unbounded chains", "anchors": ["src/ampform_dpd/__init__.py:_get_best_reference_subsystems"]}
{"id": "C22", "title": "DynamicsConfigurator behaves as a map from chains to builders", "statement": "After any sequence of register_builder calls (by chain or by name, succeeding or failing), get_builder(chain) returns the builder most recently registered successfully for an equal chain and otherwise the unit builder; failing calls change nothing; unknown chain, unknown name and other identifier types raise ValueError, KeyError, NotImplementedError.", "quantifier": "all operation histories", "why_tests_cant": "unbounded histories", "anchors": ["src/ampform_dpd/__init__.py:DynamicsConfigurator"]}
{"id": "C23", "title": "formulate uses the dynamics registered for each chain", "statement": "In the formulated model the lineshape factor of every chain is the one produced by the builder registered for that chain. (Holds when resonance names are unique; false otherwise, because the lookup is by name and finds the first chain of that name.)", "quantifier": "all decays and registrations", "why_tests_cant": "unbounded decays; needs colliding names", "anchors": ["src/ampform_dpd/__init__.py:DalitzPlotDecompositionBuilder.formulate_subsystem_amplitude", "src/ampform_dpd/__init__.py:DynamicsConfigurator.get_builder"]}
{"id": "C24", "title": "DefinedExpression product", "statement": "Multiplying DefinedExpressions multiplies the expression values and merges parameters with right bias; the product is associative with unit DefinedExpression(); multiplying by a (expr, definitions) pair or a plain expression behaves accordingly.", "quantifier": "all expressions, parameter maps and environments", "why_tests_cant": "unbounded maps", "anchors": ["src/ampform_dpd/__init__.py:DefinedExpression.__mul__"]}
{"id": "C25", "title": "One amplitude per subsystem and helicity combination", "statement": "formulate() defines exactly the amplitudes A^k[l0,l1,l2,l3] for k in the selected subsystems and l_i in the spin range of state i, each once.", "quantifier": "all valid decays, all spins and both all_subsystems settings", "why_tests_cant": "unbounded spins and chains", "anchors": ["src/ampform_dpd/__init__.py:DalitzPlotDecompositionBuilder.formulate"]}
{"id": "C26", "title": "full_expression has no undefined amplitude", "statement": "After unfolding all sums, every amplitude symbol in the intensity is a key of the amplitudes mapping, so full_expression contains no amplitude symbols.", "quantifier": "all valid decays and options", "why_tests_cant": "unbounded", "anchors": ["src/ampform_dpd/__init__.py:AmplitudeModel.full_expression", "src/ampform_dpd/__init__.py:DalitzPlotDecompositionBuilder.formulate_aligned_amplitude"]}
{"id": "C27", "title": "Every surviving coupling has a default value", "statement": "Every coupling or coefficient symbol that remains in an amplitude after unfolding the sums and evaluating the Kronecker deltas is a key of parameter_defaults, in every basis and with or without use_coefficients.", "quantifier": "all decays, bases, options", "why_tests_cant": "unbounded", "anchors": ["src/ampform_dpd/__init__.py:DalitzPlotDecompositionBuilder.formulate_subsystem_amplitude"]}
{"id": "C28", "title": "Every angle symbol is defined", "statement": "Every theta/zeta symbol that occurs in the amplitudes or the intensity is a key of variables, mapped to the expression of the angle functions for the same IDs; spinless states contribute no alignment angle.", "quantifier": "all decays and options", "why_tests_cant": "unbounded", "anchors": ["src/ampform_dpd/__init__.py:DalitzPlotDecompositionBuilder.formulate", "src/ampform_dpd/__init__.py:_AlignmentWignerGenerator"]}
{"id": "C29", "title": "Subsystem amplitude formula and helicity conservation", "statement": "The value of A^k[l] is the sum over chains of subsystem k of phase * lineshape * d^J_{l0+lk, li-lj}(theta_ij) * couplings at resonance helicity lR = l0+lk, with chains that do not admit lR contributing 0; hence it vanishes unless some chain has |l0+lk| <= J.", "quantifier": "all decays, helicities, parameter values, angles", "why_tests_cant": "unbounded", "anchors": ["src/ampform_dpd/__init__.py:DalitzPlotDecompositionBuilder.formulate_subsystem_amplitude"]}
{"id": "C30", "title": "Intensity is real and non-negative", "statement": "For all real or complex values of all couplings, angles and lineshapes, the model intensity evaluates to a non-negative real number.", "quantifier": "all decays and all parameter values", "why_tests_cant": "continuum", "anchors": ["src/ampform_dpd/__init__.py:DalitzPlotDecompositionBuilder.formulate"]}
{"id": "C31", "title": "Intensity and the choice of reference subsystem", "statement": "The intensity at fixed parameters does not depend on reference_subsystem when the initial spin is an integer (or all populated subsystems are among the two references compared); for half-integer initial spin, changing the reference from r to r' is equivalent to flipping the sign of the amplitudes of the third subsystem, so the intensity does change in general.", "quantifier": "all spins, subsystem amplitudes, points of the Dalitz plot including its boundary, and pairs of reference subsystems", "why_tests_cant": "continuum; documentation presents the choice as a matter of efficiency", "anchors": ["src/ampform_dpd/__init__.py:DalitzPlotDecompositionBuilder.formulate_aligned_amplitude", "src/ampform_dpd/angles.py:formulate_zeta_angle", "docs/lc2pkpi.ipynb"]}
{"id": "C32", "title": "Coefficient and coupling parametrisations agree", "statement": "If every coefficient equals the product of the corresponding production and decay couplings, the model with use_coefficients=True has the same amplitudes as the one with use_coefficients=False.", "quantifier": "all decays, bases, helicities and parameter values", "why_tests_cant": "continuum", "anchors": ["src/ampform_dpd/__init__.py:_create_scaling_factors"]}
{"id": "C33", "title": "Mass and Mandelstam definitions", "statement": "masses maps m0..m3 to the masses of states 0..3 in this order, these values override any dynamics default of the same symbol, and the three invariants expressions are each equivalent to sigma1+sigma2+sigma3 = m0^2+m1^2+m2^2+m3^2.", "quantifier": "all decays, all real kinematic values", "why_tests_cant": "continuum", "anchors": ["src/ampform_dpd/__init__.py:create_mass_symbol_mapping", "src/ampform_dpd/__init__.py:formulate_invariants"]}
{"id": "C34", "title": "cleanup_summations does not change the intensity value", "statement": "formulate(cleanup_summations=True) has, for all parameter values, the same intensity value as cleanup_summations=False; but the outer helicity sums are never cleaned because the cleaned intensity is discarded.", "quantifier": "all decays and parameter values", "why_tests_cant": "continuum", "anchors": ["src/ampform_dpd/__init__.py:DalitzPlotDecompositionBuilder.formulate"]}
{"id": "C35", "title": "min_ls argument decoding", "statement": "A bool configures both vertices, a pair configures (production, decay) separately, and anything else raises NotImplementedError.", "quantifier": "all argument values", "why_tests_cant": "unbounded tuples", "anchors": ["src/ampform_dpd/__init__.py:DalitzPlotDecompositionBuilder.__init__"]}
{"id": "C36", "title": "formulate fails exactly when an LS coupling is needed but missing", "statement": "For a valid decay with IDs 0..3 whose dynamics builders do not fail, formulate raises ValueError iff an LS basis is requested at a vertex of some chain that carries no LS coupling (and some helicity combination exists); it never raises KeyError for a helicity lookup.", "quantifier": "all decays and basis choices", "why_tests_cant": "unbounded", "anchors": ["src/ampform_dpd/__init__.py:_formulate_clebsch_gordan_factors", "src/ampform_dpd/__init__.py:_create_coupling_symbol"]}
{"id": "C37", "title": "Breit-Wigner closed forms", "statement": "BreitWigner and SimpleBreitWigner evaluate to 1/(m0^2 - s - i m0 Gamma), with constant width iff L=0 and both masses 0 literally; for real s, m0*Gamma != 0 the denominator never vanishes, the modulus is bounded by 1/|m0 Gamma| and attained at s=m0^2.", "quantifier": "all real s, masses and widths", "why_tests_cant": "continuum", "anchors": ["src/ampform_dpd/dynamics/__init__.py:BreitWigner", "src/ampform_dpd/dynamics/__init__.py:SimpleBreitWigner"]}
{"id": "C38", "title": "Normalisation at the pole mass", "statement": "RelativisticBreitWigner equals i and BreitWignerMinL equals i/(m0 Gamma0) at s=m0^2, given only that the energy-dependent width equals Gamma0 there and the form factors are non-zero; unitarity |A|^2 = Im A holds for the relativistic form with constant width.", "quantifier": "all parameters and every form factor function", "why_tests_cant": "continuum", "anchors": ["src/ampform_dpd/dynamics/__init__.py:RelativisticBreitWigner", "src/ampform_dpd/dynamics/__init__.py:BreitWignerMinL"]}
{"id": "C39", "title": "Multichannel Breit-Wigner adds widths", "statement": "MultichannelBreitWigner evaluates to 1/(m0^2-s-i m0 sum_k Gamma_k(s)); it does not depend on the order of the channels, and with non-negative channel widths the denominator is non-zero as soon as one is positive.", "quantifier": "every number of channels, all parameters", "why_tests_cant": "unbounded channel lists", "anchors": ["src/ampform_dpd/dynamics/__init__.py:MultichannelBreitWigner", "src/ampform_dpd/dynamics/__init__.py:ChannelArguments"]}
{"id": "C40", "title": "Flatte lineshape: channel normalisation", "statement": "Both Flatte channel widths are normalised with the second channel's breakup momentum: at s=m0^2 the second width is exactly Gamma2, the first is Gamma1 * p1/p2 and equals Gamma1 only if the two breakup momenta coincide.", "quantifier": "all parameters", "why_tests_cant": "continuum", "anchors": ["src/ampform_dpd/dynamics/__init__.py:FlattéSWave"]}
{"id": "C41", "title": "Form factors receive a squared mass", "statement": "In the lineshapes assembled by BreitWignerBuilder every form factor receives an invariant mass squared as first argument and masses as second and third. (True for the production vertex, false for the decay vertex, which receives sigma^2.)", "quantifier": "all chains and all builder settings", "why_tests_cant": "symbolic property of every chain", "anchors": ["src/ampform_dpd/dynamics/builder.py:_create_form_factor", "src/ampform_dpd/dynamics/builder.py:get_mandelstam_s"]}
{"id": "C42", "title": "BreitWignerBuilder supplies its parameters", "statement": "For every chain with LS couplings and every flag setting, every symbol in the built lineshape is the chain's Mandelstam variable, a key of its parameters, or an outer-state mass; resonance mass and width defaults are those of the resonance; ValueError iff an LS coupling is needed but missing.", "quantifier": "all chains, all 8 flag settings", "why_tests_cant": "unbounded chains", "anchors": ["src/ampform_dpd/dynamics/builder.py:BreitWignerBuilder"]}
{"id": "C43", "title": "State-ID normalisation is an order-preserving relabelling to 0..N-1", "statement": "normalize_state_ids maps the N distinct IDs onto 0..N-1 preserving their order and the attached states and graph structure, is idempotent, and does not depend on insertion order.", "quantifier": "all topologies and transitions", "why_tests_cant": "unbounded", "anchors": ["src/ampform_dpd/adapter/qrules.py:_impl_normalize_state_ids"]}
{"id": "C44", "title": "Normalised transitions use 0 / 1,2,3 / 4", "statement": "For a transition with one initial, three final and one intermediate state the normalised IDs are {0},{1,2,3},{4} iff initial < all final < intermediate IDs.", "quantifier": "all ID assignments", "why_tests_cant": "unbounded ids", "anchors": ["src/ampform_dpd/adapter/qrules.py:to_three_body_decay", "src/ampform_dpd/adapter/qrules.py:normalize_state_ids"]}
{"id": "C45", "title": "convert_transitions is insensitive to order and duplicates", "statement": "The result of convert_transitions is a sorted duplicate-free tuple that depends only on the set of converted transitions.", "quantifier": "all transition lists", "why_tests_cant": "unbounded lists and permutations", "anchors": ["src/ampform_dpd/adapter/qrules.py:convert_transitions"]}
{"id": "C46", "title": "filter_min_ls keeps one minimal transition per resonance and subsystem", "statement": "filter_min_ls returns exactly one transition per (resonance, decay products, LS of unfiltered nodes), in order of first occurrence; at each filtered node its LS is a lower bound of and attained in the group (None if any member has none), unfiltered nodes keep their LS; it is idempotent and it raises ValueError exactly when node IDs are not {0,1} or a transition has not exactly one intermediate state.", "quantifier": "all transition lists and node selections", "why_tests_cant": "unbounded", "anchors": ["src/ampform_dpd/adapter/qrules.py:filter_min_ls"]}
{"id": "C47", "title": "filter_min_ls returns members of its input", "statement": "Every transition returned by filter_min_ls is one of the input transitions if, within each group, the production and decay couplings occur in all combinations; without that it may return a combination that never existed.", "quantifier": "all transition lists", "why_tests_cant": "unbounded", "anchors": ["src/ampform_dpd/adapter/qrules.py:filter_min_ls"]}
{"id": "C48", "title": "permute_equal_final_states generates every identical-particle assignment", "statement": "For a three-body transition the result contains the transition itself and exactly one transition for each choice of spectator among the identical particles compatible with it, without duplicates; it is the singleton if no names are equal.", "quantifier": "all three-body transitions", "why_tests_cant": "unbounded names / ids", "anchors": ["src/ampform_dpd/adapter/qrules.py:_impl_permute_equal_final_states", "src/ampform_dpd/adapter/qrules.py:_get_equal_final_state_ids"]}
{"id": "C49", "title": "to_three_body_decay yields a valid decay", "statement": "If to_three_body_decay returns, the decay satisfies the constructor invariants, has one chain per remaining transition with the resonance, decay products, spectator and couplings of that transition, sorted; it raises ValueError on an empty list.", "quantifier": "all transition lists and min_ls settings", "why_tests_cant": "unbounded", "anchors": ["src/ampform_dpd/adapter/qrules.py:to_three_body_decay", "src/ampform_dpd/adapter/qrules.py:_to_decay_chain"]}
{"id": "C50", "title": "Particle conversion", "statement": "Converted particles carry name, spin, mass, width and parity unchanged and fall back to the name if there is no LaTeX; conversion raises TypeError iff the parity is undefined, even though Particle allows None.", "quantifier": "all particles", "why_tests_cant": "unbounded", "anchors": ["src/ampform_dpd/adapter/qrules.py:_to_particle", "src/ampform_dpd/adapter/qrules.py:_to_state"]}
{"id": "C51", "title": "Model-definition lookups", "statement": "get_distribution_def returns the first distribution (warning iff more than one, ValueError iff none); get_function_definition returns the first function with the name, KeyError iff none.", "quantifier": "all model definitions", "why_tests_cant": "unbounded lists", "anchors": ["src/ampform_dpd/io/serialization/format.py"]}
{"id": "C52", "title": "Spectator and decay products of a serialized chain", "statement": "For vertices [[a,b],c] and [a,b] in either order to_decay_chain uses decay products (a,b) and spectator c; the chain's topology field is never compared with its vertices. For any list of vertices, the decay products are those of the first vertex with exactly two final-state IDs and the spectator is the first ID of the first vertex that has both a subsystem and an ID; a missing propagator is an IndexError, a spin that is no number a TypeError, a missing vertex, a spin that is not half-integer or equal IDs a ValueError, and an ID that is not in the final state a KeyError.", "quantifier": "all vertex lists and ids", "why_tests_cant": "unbounded", "anchors": ["src/ampform_dpd/io/serialization/decay.py:to_decay_chain", "src/ampform_dpd/io/serialization/decay.py:get_spectator_id"]}
{"id": "C53", "title": "to_decay depends only on the set of chain definitions", "statement": "to_decay returns a valid decay whose chains are strictly sorted and depend only on the set of converted chain definitions. If the states cannot be read, the first state (initial state first) whose spin is no number (TypeError) or not half-integer (ValueError) decides what is raised; a model without distributions is a ValueError.", "quantifier": "all model definitions", "why_tests_cant": "unbounded lists", "anchors": ["src/ampform_dpd/io/serialization/decay.py:to_decay"]}
{"id": "C54", "title": "Helicity extraction", "statement": "For a well-formed helicity chain the extracted resonance helicity, decay product helicities and sorted final-state helicities are those of the vertices, whatever the vertex order and node order. A chain in which a vertex has no helicities, or not exactly one for each child, is refused with a ValueError.", "quantifier": "all chains", "why_tests_cant": "unbounded", "anchors": ["src/ampform_dpd/io/serialization/amplitude.py:_get_resonance_helicity", "src/ampform_dpd/io/serialization/amplitude.py:_get_final_state_helicities", "src/ampform_dpd/io/serialization/amplitude.py:_get_decay_product_helicities"]}
{"id": "C55", "title": "Recoupling values", "statement": "The helicity recoupling is 1 at its own helicities and 0 elsewhere; the parity recoupling is 1 at its own helicities, f at the opposite ones and 0 elsewhere, except that for two zero helicities it is 1+f; it obeys H(-a,-b) = f H(a,b) for f=+-1.", "quantifier": "all helicities", "why_tests_cant": "unbounded", "anchors": ["src/ampform_dpd/io/serialization/amplitude.py:HelicityRecoupling", "src/ampform_dpd/io/serialization/amplitude.py:ParityRecoupling"]}
{"id": "C56", "title": "Deserialized amplitudes conserve angular momentum projection", "statement": "A^k[l0,...] of a deserialized model vanishes for chains whose resonance helicity does not satisfy l0 = lR - lk, and flipped-helicity terms of parity vertices use the flipped helicities in the Wigner function. (Both are false: the amplitude does not depend on l0 at all, and the Wigner function always uses the vertex's own helicities.)", "quantifier": "all model definitions and helicities", "why_tests_cant": "needs all helicity combinations", "anchors": ["src/ampform_dpd/io/serialization/amplitude.py:formulate_chain_amplitude"]}
{"id": "C57", "title": "LS vertices can be deserialized", "statement": "formulate_recoupling succeeds for vertices of type ls. (False: it raises for every LS vertex that has a final-state child.)", "quantifier": "all LS vertices", "why_tests_cant": "no test model has LS vertices", "anchors": ["src/ampform_dpd/io/serialization/amplitude.py:_get_child_spins"]}
{"id": "C58", "title": "Parameters of different resonances do not interfere", "statement": "Each parameter value of a function definition appears under its own symbol in parameter_defaults. (False for the meson radius R_res and for channel masses m_{a,n}, m_{b,n}, which are shared by all resonances; true for resonance masses and widths of differently named resonances.)", "quantifier": "all model definitions", "why_tests_cant": "unbounded sets of resonances", "anchors": ["src/ampform_dpd/io/serialization/dynamics.py"]}
{"id": "C59", "title": "Serialized form factors receive a squared mass", "statement": "FormFactor is called with an invariant mass squared and two masses. (True for decay vertices; false for production vertices, which pass m0 and sigma_k.) A form factor whose function is not defined, or lacks l or radius, is a KeyError; one whose function is not of type BlattWeisskopf is a NotImplementedError.", "quantifier": "all vertices", "why_tests_cant": "symbolic property of every vertex", "anchors": ["src/ampform_dpd/io/serialization/dynamics.py:formulate_form_factor"]}
{"id": "C60", "title": "Deserialized model is closed", "statement": "Every amplitude symbol in the unfolded intensity of a deserialized model is defined, each definition is the sum over the chains of that subsystem, and every chain weight is in parameter_defaults. The weights of two chains are the same parameter exactly if the chains have the same LaTeX and the same helicities of the resonance and the final states; otherwise every weight in the file is the default value of its own parameter.", "quantifier": "all model definitions", "why_tests_cant": "unbounded", "anchors": ["src/ampform_dpd/io/serialization/amplitude.py:formulate"]}
{"id": "C61", "title": "Parity sign parsing", "statement": "_sign_to_value maps '-' to -1, '' to 0, '+' to 1, ignoring surrounding white space, and raises NotImplementedError on everything else.", "quantifier": "all strings", "why_tests_cant": "unbounded strings", "anchors": ["src/ampform_dpd/io/serialization/amplitude.py:_sign_to_value"]}
{"id": "C62", "title": "Mass and Mandelstam symbols of nodes", "statement": "to_mass_symbol(i) is m_i, to_mass_symbol((i,j)) is sigma_k with k the remaining ID, in either order, and NotImplementedError for deeper nodes; to_mandelstam_symbol is sigma_k for final-state pairs and m0 (not its square) for production nodes.", "quantifier": "all nodes", "why_tests_cant": "unbounded trees", "anchors": ["src/ampform_dpd/io/serialization/dynamics.py:to_mass_symbol", "src/ampform_dpd/io/serialization/dynamics.py:to_mandelstam_symbol"]}
{"id": "C63", "title": "When Markdown tables are rectangular", "statement": "For particles whose name and LaTeX contain no bar and no newline, every row of as_markdown_table has as many cells as the header. For chains this holds exactly if the chains agree on having an LS coupling at the decay vertex and agree on having one at the production vertex. Neither condition can be dropped.", "quantifier": "all particle and chain lists", "why_tests_cant": "unbounded lists", "anchors": ["src/ampform_dpd/io/__init__.py:_as_decay_markdown_table", "src/ampform_dpd/io/__init__.py:_as_resonance_markdown_table"]}
{"id": "C64", "title": "Item type determination", "statement": "_determine_item_type returns the unique type of which every item is an instance if the items' types have a common superclass among them, raises ValueError for the empty sequence or if there is none; the result does not depend on order or multiplicity of the items.", "quantifier": "all sequences and class hierarchies", "why_tests_cant": "unbounded lists and hierarchies", "anchors": ["src/ampform_dpd/io/__init__.py:_determine_item_type"]}
{"id": "C65", "title": "J^P rendering is unambiguous", "statement": "The J^P text determines spin and parity uniquely: different (spin, parity) pairs render differently.", "quantifier": "all half-integer spins and parities", "why_tests_cant": "infinite domain", "anchors": ["src/ampform_dpd/io/__init__.py:_render_jp"]}
{"id": "C66", "title": "lambdify caching is transparent", "statement": "In any history of lambdify calls and restarts of the process, every call returns or raises what an uncached call would, provided equal arguments (and arguments with equal hash) create the same function; without the proviso this fails (1 == True). A string second argument is taken as the backend; parameters={} is not the same as no parameters. A function is created at most once per process for equal arguments, and at most once per hash over all processes. Double precision is on exactly if a call since the start of the process used JAX.", "quantifier": "all call histories", "why_tests_cant": "unbounded histories", "anchors": ["src/ampform_dpd/io/cached.py:lambdify", "src/ampform_dpd/io/cached.py:_lambdify_impl"]}
{"id": "C67", "title": "Lineshape classes are dimensionally homogeneous", "statement": "With arguments of the right mass dimensions, every lineshape class evaluates to a dimensionally consistent expression: RelativisticBreitWigner is dimensionless, SimpleBreitWigner, BreitWigner, BreitWignerMinL, BuggBreitWigner and FlatteSWave are inverse squared masses and a channel width is a mass. So a change of the unit of mass rescales the amplitude by a fixed power.", "quantifier": "all argument expressions, all changes of unit, all covariant form factors and widths", "why_tests_cant": "Numerical tests evaluate one set of masses in one unit.", "anchors": ["src/ampform_dpd/dynamics/__init__.py: RelativisticBreitWigner, BreitWignerMinL, BuggBreitWigner, FlattéSWave, ChannelArguments, BreitWigner, SimpleBreitWigner"]}
{"id": "C68", "title": "Bugg lineshape: Adler zero and normalisation", "statement": "BuggBreitWigner equals 1/(m0^2-s-i g^2(s)); for real parameters with m0^2 > s_A and m0*Gamma0 != 0 it is real exactly at the Adler zero s_A = m1^2 - m2^2/2, has no other real pole, and equals i exp(gamma m0^2)/(m0 Gamma0) at s=m0^2.", "quantifier": "all real s and parameters", "why_tests_cant": "Statement about all real s.", "anchors": ["src/ampform_dpd/dynamics/__init__.py: BuggBreitWigner.evaluate"]}
{"id": "C69", "title": "LaTeX code of a decay chain can be read back", "statement": "aslatex of two decay chains (or isobar nodes) gives the same text exactly if the decays have the same shape, the same LaTeX names (with with_jp also spins and parities) in the same places, the same LS couplings at the same vertices, and the same decaying particles are State objects. This needs LaTeX names without spaces that are not arrows and do not start or end with a bracket of a decay; with spaces it fails. The text does not show IDs.", "quantifier": "all pairs of decay chains of any depth", "why_tests_cant": "infinitely many trees, names and couplings", "anchors": ["src/ampform_dpd/io/__init__.py:aslatex", "src/ampform_dpd/io/__init__.py:render_arrow"]}
{"id": "C70", "title": "Intensity of a deserialized model", "statement": "The unfolded intensity of a model deserialized from JSON evaluates to the sum over all helicities of |aligned amplitude|^2, hence is never negative; cleaning up the summation does not change it when no spin is negative; the subsystems summed over are exactly those named in the topologies of the chains.", "quantifier": "all serialized models with well-formed kinematics for which formulate returns, all reference subsystems, all parameter values", "why_tests_cant": "the intensity is symbolic and the identity must hold for all spins, chain lists and numerical values", "anchors": ["src/ampform_dpd/io/serialization/amplitude.py: formulate, formulate_aligned_amplitude"]}
{"id": "C71", "title": "Angles of a deserialized model are defined", "statement": "Every angle symbol that occurs in the intensity or in an amplitude of a deserialized model (helicity angles and alignment angles) is defined in the model's variables.", "quantifier": "all serialized models for which formulate returns", "why_tests_cant": "must hold for every combination of topologies and reference subsystem", "anchors": ["src/ampform_dpd/io/serialization/amplitude.py: formulate"]}
{"id": "C72", "title": "A formulated model leaves nothing undefined", "statement": "In the full expression of a formulated model there is no unsummed helicity symbol, every indexed coupling is a parameter with a default value, and every other symbol is an angle with a definition, a Mandelstam variable with a definition, or a parameter with a default value, provided the lineshapes only use their own parameters, m0..m3 and sigma1..3, which those of BreitWignerBuilder do. The definitions of angles and invariants use only Mandelstam variables and parameters. So at every point of the Dalitz region, including its boundary, the model has a value, and this value is determined by the parameters and two of the three Mandelstam variables.", "quantifier": "all three-body decays with the standard IDs, all spins, chains, lineshapes, options of formulate and of the builder, reference subsystems, points of the Dalitz region and parameter values", "why_tests_cant": "absence of a stray symbol must hold for every decay, every option and every lineshape; tests look at a few formulated models", "anchors": ["src/ampform_dpd/__init__.py: DalitzPlotDecompositionBuilder.formulate, AmplitudeModel.full_expression, formulate_invariants, create_mass_symbol_mapping", "src/ampform_dpd/dynamics/builder.py: BreitWignerBuilder"]}
{"id": "C73", "title": "Lineshapes of a deserialized model", "statement": "A propagator with a BreitWigner function becomes the energy-dependent Breit-Wigner function of the Mandelstam variable and masses of its two decay products; one with a MultichannelBreitWigner function the Breit-Wigner function whose width is the sum of the widths of its channels. A custom builder takes precedence over a built-in one; an unknown function raises KeyError, an unknown type NotImplementedError. A missing entry of a BreitWigner function is a KeyError, and a propagator node without exactly two children a ValueError.", "quantifier": "all propagators, function definitions, numbers of channels, custom builders, parameter values", "why_tests_cant": "identity of symbolic expressions for every definition and an unbounded number of channels", "anchors": ["src/ampform_dpd/io/serialization/dynamics.py: formulate_dynamics, formulate_breit_wigner, formulate_multichannel_breit_wigner"]}
{"id": "C74", "title": "Markdown tables show the items faithfully", "statement": "The text of as_markdown_table splits into a header, a separator and one row per item in order, with name, LaTeX, J^P, and mass and width in MeV rounded towards zero; an index column is there exactly if one of the particles is a State. Two sequences of particles that give the same text have the same index, name, LaTeX, spin, parity and rounded mass and width, item by item.", "quantifier": "all non-empty sequences of particles and of chains whose names contain no bar and no newline", "why_tests_cant": "unbounded lists, all names and numbers", "anchors": ["src/ampform_dpd/io/__init__.py:as_markdown_table", "src/ampform_dpd/io/__init__.py:_as_resonance_markdown_table", "src/ampform_dpd/io/__init__.py:_as_decay_markdown_table", "src/ampform_dpd/io/__init__.py:_create_markdown_table_row"]}
{"id": "C75", "title": "A deserialized model leaves nothing undefined", "statement": "In what formulate returns for a serialized model definition no helicity symbol is left in full_expression, every symbol in it is an angle of variables, a Mandelstam variable or a parameter with a default value, and the definitions of the angles and Mandelstam variables use only masses and Mandelstam variables. On the Dalitz region, including its boundary, every angle can be computed by its definition, so that the value of the intensity is determined by the parameters and the Mandelstam variables.", "quantifier": "all model definitions with standard kinematics and chains in any order, all lineshape and form factor types, custom builders with closed lineshapes, clean-up on or off, all points of the Dalitz region including its boundary, all parameter values", "why_tests_cant": "symbols that get no value appear only for particular chains, vertices and lineshapes; the claim is about every model definition", "anchors": ["src/ampform_dpd/io/serialization/amplitude.py:formulate", "src/ampform_dpd/io/serialization/amplitude.py:formulate_chain_amplitude", "src/ampform_dpd/io/serialization/dynamics.py: formulate_dynamics, formulate_form_factor", "src/ampform_dpd/__init__.py:AmplitudeModel.full_expression"]}
{"id": "C76", "title": "Switching off couplings removes chains", "statement": "If all couplings of some chains are set to zero, the value of the model is that of the model formulated for a decay without these chains, with the same reference subsystem and lineshapes. Fit fractions and sub-intensities can be computed by setting couplings to zero.", "quantifier": "all decays, all selections of chains, both bases at both vertices, with and without coefficients, all parameter values and kinematic points", "why_tests_cant": "ranges over all decays, selections of chains and all complex values; removing chains changes which subsystems are summed over", "anchors": ["src/ampform_dpd/__init__.py:DalitzPlotDecompositionBuilder.formulate", "src/ampform_dpd/__init__.py:DalitzPlotDecompositionBuilder.formulate_subsystem_amplitude", "src/ampform_dpd/__init__.py:DalitzPlotDecompositionBuilder.formulate_aligned_amplitude"]}
{"id": "C77", "title": "The intensity is a quadratic form in the couplings", "statement": "Multiplying all couplings by a complex number multiplies the intensity by its squared modulus, so a common phase is not observable; for sums and differences of couplings the parallelogram law holds, which means that amplitudes of chains are added coherently.", "quantifier": "all decays, bases and complex values of the couplings, all kinematic points", "why_tests_cant": "identity over all complex coupling values and all decays", "anchors": ["src/ampform_dpd/__init__.py:DalitzPlotDecompositionBuilder.formulate", "src/ampform_dpd/__init__.py:_create_scaling_factors"]}
{"id": "C78", "title": "Spinless decays: coherent sum of d^J_00", "statement": "For four spinless particles the full expression is the squared modulus of the sum over chains of lineshape, coupling(s) and d^J_00 of the helicity angle of the subsystem (times the Clebsch-Gordan factors in the LS basis); there is no alignment rotation and no dependence on the reference subsystem.", "quantifier": "all decays of spinless particles, numbers of chains, resonance spins, bases, parameter values", "why_tests_cant": "identity of an unbounded sum over chains for all values", "anchors": ["src/ampform_dpd/__init__.py:DalitzPlotDecompositionBuilder.formulate", "src/ampform_dpd/__init__.py:_AlignmentWignerGenerator"]}
{"id": "C79", "title": "LS models are helicity models", "statement": "A model in the LS basis has the same value as a model in the helicity basis in which chains that differ only in LS couplings are one chain and each helicity coefficient is the sum over the LS couplings of LS coefficient times Clebsch-Gordan factors. Such helicity coefficients exist for all values of the LS coefficients if the resonances have different LaTeX names.", "quantifier": "all decays and reference subsystems, all values of the LS coefficients and other parameters, all kinematic points", "why_tests_cant": "identity over all coefficient values, decays and numbers of LS couplings", "anchors": ["src/ampform_dpd/__init__.py:DalitzPlotDecompositionBuilder.formulate_subsystem_amplitude", "src/ampform_dpd/__init__.py:_create_scaling_factors", "src/ampform_dpd/__init__.py:_formulate_clebsch_gordan_factors"]}
{"id": "C80", "title": "Symmetry under exchange of identical particles", "statement": "If two spinless final-state particles have the same mass and every chain of the decay comes with the chain in which they are exchanged (same resonance, same couplings), the intensity is the same at any two points of the Dalitz plot that differ by the exchange of the two particles. (False if resonances of even and of odd spin occur: exchanged chains share their coefficients, the helicity angle of the exchanged subsystem is pi minus the original one, and the chain changes by (-1)^J.)", "quantifier": "all decays of spinless particles with such chains, pairs of final states, couplings, kinematic points", "why_tests_cant": "identity over all points of the Dalitz plot, decays and resonance spins", "anchors": ["src/ampform_dpd/__init__.py:DalitzPlotDecompositionBuilder.formulate", "src/ampform_dpd/__init__.py:_create_scaling_factors", "src/ampform_dpd/angles.py:formulate_scattering_angle"]}
{"id": "C81", "title": "No division by zero", "statement": "The full expression of a model contains no division by zero at points at which the lineshapes contain none: alignment, couplings and form factors introduce no denominator. A Breit-Wigner lineshape divides by zero exactly at s = m^2 - i m Gamma(s), a multichannel one also at s = 0, so that models with these lineshapes can be evaluated wherever the Mandelstam variables are real and positive and the masses and widths of the resonances are positive. Holds for models of the builder and for deserialized models.", "quantifier": "all decays, couplings, lineshapes, points of the Dalitz plot, values of the parameters", "why_tests_cant": "the denominators must be non-zero at every point and for every value of the parameters", "anchors": ["src/ampform_dpd/__init__.py:AmplitudeModel.full_expression", "src/ampform_dpd/__init__.py:DalitzPlotDecompositionBuilder.formulate", "src/ampform_dpd/dynamics/builder.py:BreitWignerBuilder", "src/ampform_dpd/dynamics/__init__.py:MultichannelBreitWigner", "src/ampform_dpd/io/serialization/amplitude.py:formulate"]}
{"id": "C82", "title": "The numbering of the final states does not matter", "statement": "If the final states of a decay are renumbered cyclically (1 to 2 to 3 to 1), the model can still be formulated, and with the renumbered reference subsystem its intensity at the same kinematic point (masses and Mandelstam variables renumbered) is the same, for all spins, couplings and lineshapes that follow the renumbering, such as those of the Breit-Wigner builder.", "quantifier": "all decays, reference subsystems, couplings, kinematic points, lineshapes", "why_tests_cant": "identity between two models over all decays, spins and points of the Dalitz plot", "anchors": ["src/ampform_dpd/__init__.py:DalitzPlotDecompositionBuilder.formulate", "src/ampform_dpd/angles.py:formulate_zeta_angle", "src/ampform_dpd/angles.py:formulate_scattering_angle", "src/ampform_dpd/decay.py:get_decay_product_ids", "src/ampform_dpd/dynamics/builder.py:BreitWignerBuilder"]}
{"id": "C83", "title": "The unit of mass does not matter", "statement": "If masses, widths, Mandelstam variables and meson radii are given in another unit of mass, angles do not change and the intensity only changes by one overall factor, the same at every kinematic point and for every value of the parameters: no factor at all for Breit-Wigner lineshapes with energy-dependent width, the inverse fourth power of the unit for constant width.", "quantifier": "all decays, units, kinematic points, couplings, and lineshapes of equal dimension; all settings of the Breit-Wigner builder", "why_tests_cant": "identity over all points of the Dalitz plot, spins, parameters and scale factors", "anchors": ["src/ampform_dpd/__init__.py:DalitzPlotDecompositionBuilder.formulate", "src/ampform_dpd/angles.py:formulate_zeta_angle", "src/ampform_dpd/angles.py:formulate_scattering_angle", "src/ampform_dpd/dynamics/builder.py:BreitWignerBuilder"]}
{"id": "C84", "title": "From QRules transitions to an amplitude model", "statement": "For transitions of one three-body decay, with increasing IDs such as those of QRules, the sequence to_three_body_decay, DalitzPlotDecompositionBuilder, register_builder for every chain, formulate does not fail for any combination of options, provided that LS couplings are defined at the nodes where the chosen options use them; otherwise ValueError is raised. The resulting model is complete (nothing in it is undefined), its intensity is a non-negative real number, and all its angles can be computed on the Dalitz region including its boundary.", "quantifier": "all lists of transitions of one decay (IDs, spins, resonances, number of transitions), all values of both min_ls arguments, all_subsystems, reference subsystem, cleanup and coefficient options, all settings of the Breit-Wigner builder", "why_tests_cant": "composition of the whole package over unboundedly many inputs and all option combinations", "anchors": ["src/ampform_dpd/adapter/qrules.py:to_three_body_decay", "src/ampform_dpd/__init__.py:DalitzPlotDecompositionBuilder", "src/ampform_dpd/__init__.py:DynamicsConfigurator.register_builder", "src/ampform_dpd/dynamics/builder.py:BreitWignerBuilder"]}
{"id": "C85", "title": "Order and repetition of transitions do not matter", "statement": "to_three_body_decay returns the same decay object for any two lists with the same transitions of one three-body decay, in whatever order and however often each of them is given, for every min_ls; so the amplitude model formulated from it is the same object too, with the same expressions and the same parameter dictionaries in the same order.", "quantifier": "all lists of transitions of one three-body decay with increasing IDs, all rearrangements and repetitions, all options", "why_tests_cant": "all permutations and multiplicities of lists of any length, through relabelling, conversion, deduplication, grouping by resonance and sorting", "anchors": ["src/ampform_dpd/adapter/qrules.py: to_three_body_decay, normalize_state_ids, convert_transitions, filter_min_ls, to_decay_chain", "src/ampform_dpd/__init__.py: DalitzPlotDecompositionBuilder.formulate"]}
{"id": "C86", "title": "Intensity of a deserialized model as a function of its weights", "statement": "In a model formulated from a serialized definition: multiplying the weights of all chains by a complex number z multiplies the intensity by |z|^2; intensities for sums and differences of two sets of weights obey the parallelogram law; setting weights to zero gives the intensity of the model definition without those chains, and the order of the chains in the file does not matter; if the weights in the file are multiplied by x+iy (and equally named weights have equal values), the intensity at the default parameter values is multiplied by x^2+y^2 and no other parameter default changes.", "quantifier": "all well-formed serialized models (chains, vertices, spins, functions), all complex weights, all values of the other parameters and functions, all points", "why_tests_cant": "identities between functions over all complex weights and all numbers of chains, independent of the numerical values of lineshapes", "anchors": ["src/ampform_dpd/io/serialization/amplitude.py: formulate, formulate_chain_amplitude, _get_weight", "src/ampform_dpd/io/serialization/format.py: get_decay_chains"]}
{"id": "C87", "title": "Deserialized models for spinless particles, and agreement of the two ways to a model", "statement": "If all particles are spinless (and the helicities in the vertices are 0), the intensity of a deserialized model is |sum over chains of weight * vertex factors * d^J_00(angle between the decay products) * lineshape * form factors|^2; a parity vertex counts as 2 or 0, not 1. A DalitzPlotDecompositionBuilder for the decay of the same model gives the same intensity if, chain by chain, lineshape times coupling equals weight times vertex factors times lineshape times form factors, for all options of the builder.", "quantifier": "all serialized models of spinless particles with any number of chains, all builder options, all parameter values and functions", "why_tests_cant": "equality of two independent code paths for all models and all parameter values", "anchors": ["src/ampform_dpd/io/serialization/amplitude.py: formulate", "src/ampform_dpd/io/serialization/decay.py: to_decay", "src/ampform_dpd/__init__.py: DalitzPlotDecompositionBuilder.formulate"]}
{"id": "C88", "title": "Relabelling commutes with permutation of identical particles", "statement": "permute_equal_final_states(normalize_state_ids(x)) gives the same list of transitions, in the same order, as normalize_state_ids(permute_equal_final_states(x)), for a transition and for iterables of transitions nested to any depth, and raises the same error if it raises.", "quantifier": "all transitions with any topology and any IDs, and all iterables of these", "why_tests_cant": "all graphs and all integer IDs; the order of the result depends on comparisons of relabelled graphs", "anchors": ["src/ampform_dpd/adapter/qrules.py: normalize_state_ids", "src/ampform_dpd/adapter/qrules.py: permute_equal_final_states"]}
{"id": "C89", "title": "Nested containers in the QRules adapter", "statement": "normalize_state_ids keeps the nesting of its argument, treats every item on its own, raises the error of the first item that cannot be treated, and is idempotent for every supported type. permute_equal_final_states of an iterable flattens it: the result is the concatenation of the results for the items at any depth and does not depend on the nesting. A ReactionInfo is accepted by both functions, but permute_equal_final_states raises TypeError if it is an item of an iterable. Unsupported objects raise NotImplementedError; non-empty strings recurse without end (RecursionError).", "quantifier": "all arguments: transitions, topologies, mutable transitions, problem sets, reactions, strings, other objects and iterables of these, nested to any depth", "why_tests_cant": "unbounded nesting and length", "anchors": ["src/ampform_dpd/adapter/qrules.py: normalize_state_ids", "src/ampform_dpd/adapter/qrules.py: permute_equal_final_states"]}
{"id": "C90", "title": "When relabelling a MutableTransition keeps states at their edges", "statement": "normalize_state_ids of a MutableTransition relabels the edges of its topology in order. Its states stay at their edges if and only if no edge without state has a smaller ID than an edge with a state; otherwise at least one state silently moves to another edge or gets an ID that no longer belongs to its edge.", "quantifier": "all mutable transitions, with states for any subset of the edges", "why_tests_cant": "all graphs, IDs and subsets of edges", "anchors": ["src/ampform_dpd/adapter/qrules.py: normalize_state_ids"]}
{"id": "C91", "title": "Both front-ends agree for the decay of a spinless particle to particles with spin", "statement": "Let a serialized model describe the decay of a particle of spin 0 by helicity vertices in which the resonance has the helicity of the spectator. If DalitzPlotDecompositionBuilder is given the decay of the deserialized model and the same reference subsystem, and for every chain and all helicities its phases (-1)^(j-lambda), lineshape and couplings multiply to the sum of weight, lineshape and form factors of the chain definitions with these helicities, both models have the same intensity: same alignment angles, same Wigner functions, same range of helicities, whatever the spins and whatever the options of the builder.", "quantifier": "all serialized models of decays of spinless particles without parity vertices, spins, values of all symbols, options", "why_tests_cant": "identity between two separately written code paths for all models and points of the Dalitz plot", "anchors": ["src/ampform_dpd/io/serialization/amplitude.py:formulate", "src/ampform_dpd/__init__.py:DalitzPlotDecompositionBuilder.formulate"]}
{"id": "C92", "title": "LaTeX code of defined expressions and indexed symbols", "statement": "aslatex of a DefinedExpression is a LaTeX array: first the expression, with its unfolded form in a second column exactly if doit(deep=False) changes it, then one row per parameter, in the order of the dictionary. If the LaTeX code of the parts has no ampersands and newlines, the text determines all rows (with them it does not). Keyword arguments have no effect if the expression can be unfolded. After simplify_latex_rendering, the LaTeX code of an indexed symbol determines its base and indices if the indices contain no commas (with commas it does not).", "quantifier": "all defined expressions, renderings of the parts, and keyword arguments", "why_tests_cant": "unbounded expressions and parameter dictionaries", "anchors": ["src/ampform_dpd/io/__init__.py:aslatex", "src/ampform_dpd/io/__init__.py:simplify_latex_rendering"]}
{"id": "C93", "title": "Parity conservation", "statement": "If parity is conserved at all vertices (LS couplings: P = P1 P2 (-1)^L; helicity couplings: H(-l1,-l2) = P P1 P2 (-1)^(s1+s2-j) H(l1,l2)), reversing all helicities multiplies all subsystem amplitudes by the same sign P0 P1 P2 P3 (-1)^((l0-s0)+(s1-l1)+(s2-l2)+(s3-l3)), in each of the four combinations of LS and helicity couplings, with and without use_coefficients, whatever the lineshapes, masses and angles. Then each contribution to the intensity is unchanged, and the intensity for helicity M of the decaying particle equals that for -M. So phases and arguments of the Clebsch-Gordan coefficients and Wigner functions are consistent between subsystems and between the bases. LS couplings need no condition on their values.", "quantifier": "all decays, spins, parities, LS and helicity couplings, values of all symbols, subsystems and helicities", "why_tests_cant": "identity over all spins and LS couplings and for all points of the Dalitz plot", "anchors": ["src/ampform_dpd/__init__.py:DalitzPlotDecompositionBuilder.formulate_subsystem_amplitude", "src/ampform_dpd/__init__.py:_formulate_clebsch_gordan_factors", "src/ampform_dpd/__init__.py:DalitzPlotDecompositionBuilder.formulate_aligned_amplitude"]}
{"id": "C94", "title": "The change from LS couplings to helicity couplings is orthogonal", "statement": "For a decay J -> s1 s2 that conserves angular momentum, the factors that the amplitude has for the LS couplings listed by generate_ls_couplings (max_L at least J+s1+s2) and the helicities (l1,l2) with |l1-l2| <= J are an orthogonal matrix: rows and columns are orthonormal. So helicity couplings are sums of LS couplings times factors exactly if the LS couplings are sums of the helicity couplings times the same factors, and the sum of the squared couplings is the same in both bases. The factors of LSRecoupling of serialized models have the same orthogonality. With a max_L below J+s1+s2 the matrix is not complete: some helicity couplings are not sums of LS couplings.", "quantifier": "all spins J, s1, s2, all max_L that are high enough, all couplings", "why_tests_cant": "identity between Clebsch-Gordan coefficients for all spins", "anchors": ["src/ampform_dpd/__init__.py:_formulate_clebsch_gordan_factors", "src/ampform_dpd/spin.py:generate_ls_couplings", "src/ampform_dpd/io/serialization/amplitude.py:LSRecoupling"]}
{"id": "C95", "title": "The LS basis is complete", "statement": "For every model in the helicity basis and all values of its coefficients, there are values of the LS coefficients for which the model in the LS basis, with one chain for each combination of LS couplings listed by generate_ls_couplings, has the same value at all angles, masses and parameters (if the lineshapes do not depend on LS). So generate_ls_couplings misses no coupling and the LS basis loses no generality.", "quantifier": "all decays with different resonance names, spins, values of all helicity coefficients, angles and parameters", "why_tests_cant": "existence of couplings for all decays and all values of the helicity couplings", "anchors": ["src/ampform_dpd/__init__.py:DalitzPlotDecompositionBuilder.formulate", "src/ampform_dpd/__init__.py:_formulate_clebsch_gordan_factors", "src/ampform_dpd/spin.py:generate_ls_couplings"]}
{"id": "C96", "title": "Order of chains and transitions", "statement": "convert_transitions returns the converted transitions, and to_three_body_decay and to_decay the decay chains, in ascending order in the sense of Python's < on attrs instances (field by field, first difference decides), strictly for convert_transitions and to_decay. Sorting raises TypeError exactly if Python cannot compare two of them: None against a value, or instances of different classes, in the first fields that differ.", "quantifier": "all transitions, all model definitions, all lists of chains", "why_tests_cant": "all contents and orders of the input", "anchors": ["src/ampform_dpd/adapter/qrules.py:convert_transitions", "src/ampform_dpd/adapter/qrules.py:to_three_body_decay", "src/ampform_dpd/io/serialization/decay.py:to_decay", "src/ampform_dpd/decay.py:ThreeBodyDecayChain"]}
{"id": "C97", "title": "The parity filter keeps the couplings of parity-conserving decays", "statement": "Helicity couplings made from LS couplings have the symmetry of a parity-conserving decay, H(-l1,-l2) = p p1 p2 (-1)^(s1+s2-J) H(l1,l2), exactly if all LS couplings that filter_parity_violating_ls removes are zero. All helicity couplings with that symmetry follow from values for the couplings that are kept, and these values are unique.", "quantifier": "all spins J, s1, s2, all parities, all couplings, all max_L that are high enough", "why_tests_cant": "equivalence for all spins and all values of the couplings", "anchors": ["src/ampform_dpd/spin.py:filter_parity_violating_ls", "src/ampform_dpd/spin.py:generate_ls_couplings", "src/ampform_dpd/__init__.py:_formulate_clebsch_gordan_factors"]}
{"id": "C98", "title": "Resonances with different spins do not interfere in projections", "statement": "If all decay chains are in the same subsystem k, the intensity integrated over the cosine of the decay angle, or over the Dalitz plot at a fixed value of the Mandelstam variable sigma_k, is the sum over the spins J of the resonances of 2/(2J+1) times the squared couplings summed over helicities. So it is the sum of the integrals of models with the resonances of one spin each. It depends neither on the reference subsystem nor on the alignment angles.", "quantifier": "all decays with chains in one subsystem, all spins, couplings and lineshapes that only depend on sigma_k, all values of sigma_k inside the Dalitz plot, all reference subsystems", "why_tests_cant": "integrals over a continuum, for all spins and values of the couplings", "anchors": ["src/ampform_dpd/__init__.py:DalitzPlotDecompositionBuilder.formulate", "src/ampform_dpd/__init__.py:DalitzPlotDecompositionBuilder.formulate_subsystem_amplitude", "src/ampform_dpd/angles.py:formulate_scattering_angle"]}
{"id": "C99", "title": "Optical theorem for the lineshapes", "statement": "For real s, masses and widths: SimpleBreitWigner and BreitWigner have Im A = m0 Gamma(s) |A|^2, and m0 Gamma A lies on the unitarity circle. With constant width the phase increases with s and is 90 degrees exactly at the pole mass. For MultichannelBreitWigner Im A is the sum of the rates m0 Gamma_c |A|^2 of its channels. For FlattéSWave it is the sum of both channels above both thresholds and only the first channel below the threshold of the second. For BuggBreitWigner it is g^2(s) |A|^2, with a change of sign at the Adler zero. For BreitWignerMinL with real form factors r Im A = m0 Gamma |A|^2, where r is the product of the ratios of the form factors.", "quantifier": "all real values of s, masses, widths, and couplings; any number of channels", "why_tests_cant": "the relations hold on the whole real axis; tests evaluate single points", "anchors": ["src/ampform_dpd/dynamics/__init__.py:SimpleBreitWigner", "src/ampform_dpd/dynamics/__init__.py:BreitWigner", "src/ampform_dpd/dynamics/__init__.py:MultichannelBreitWigner", "src/ampform_dpd/dynamics/__init__.py:FlattéSWave", "src/ampform_dpd/dynamics/__init__.py:BuggBreitWigner", "src/ampform_dpd/dynamics/__init__.py:BreitWignerMinL"]}
{"id": "C100", "title": "Numbering of the final states of a serialized model", "statement": "If the IDs of the final states are renumbered 1 -> 2 -> 3 -> 1 everywhere in a serialized model (kinematics, nodes of vertices and propagators, topologies, reference topology), the amplitude model that is formulated from it has the same intensity at the same kinematic point, i.e. with masses and Mandelstam variables renumbered and the same weights and lineshape parameters. The lineshapes and form factors of the renumbered model exist if those of the original one do, and have the same values. The symbols of the weights are in general renamed, because they list the helicities in the order of the IDs.", "quantifier": "all well-formed serialized models with any number of chains, helicity and parity vertices in any order, any spins, all parameter values and points of phase space", "why_tests_cant": "it relates two models for every kinematic point and every model definition; a test compares a few numbers", "anchors": ["src/ampform_dpd/io/serialization/amplitude.py:formulate", "src/ampform_dpd/io/serialization/amplitude.py:formulate_chain_amplitude", "src/ampform_dpd/io/serialization/dynamics.py:formulate_dynamics", "src/ampform_dpd/io/serialization/dynamics.py:formulate_form_factor", "src/ampform_dpd/io/serialization/decay.py:to_decay"]}
{"id": "C101", "title": "Reference topology of a serialized model", "statement": "If the reference_topology of a serialized model is replaced by another topology, the model can still be formulated and its amplitudes, parameters, masses and Mandelstam variables stay the same. The intensity at a given kinematic point stays the same if the new topology has the same spectator, if the initial spin is an integer, or if no chain belongs to the third subsystem; otherwise the change has the effect of a sign in front of the amplitudes of the third subsystem, and does change the intensity for some values of the amplitudes. Angles that occur in both models have the same definition.", "quantifier": "all well-formed serialized models, both reference topologies, all spins, all values of the amplitudes, all points of the Dalitz region including its boundary", "why_tests_cant": "it compares two models at every point of phase space and for all values of the amplitudes; a test compares a few numbers", "anchors": ["src/ampform_dpd/io/serialization/amplitude.py:formulate", "src/ampform_dpd/io/serialization/amplitude.py:formulate_aligned_amplitude", "src/ampform_dpd/io/serialization/format.py:get_reference_topology", "src/ampform_dpd/angles.py:formulate_zeta_angle"]}
{"id": "C102", "title": "Concurrent use of the lambdify cache", "statement": "Any number of threads and processes can share the cache of lambdify, with their steps in any order, processes killed at any point and cache files removed at any time. If the disk cache puts a finished file in place in one step, every call that ends returned or raised what it would without any caching (under the provisos of C66). If it writes files in place, the same holds as long as calls do not overlap and no process is killed during a call; otherwise a call still never returns a wrong function, but it can raise because a file is unfinished; a process that is killed while it writes a file makes all later calls with these arguments raise, in all processes, until the file is removed, after which the next undisturbed call works again. No call waits for another one: it ends after at most six steps of its own thread. Double precision is on in a process while it makes a call that uses JAX. A single thread behaves as in C66. Two threads can create a function for the same arguments twice.", "quantifier": "all numbers of threads and processes, all schedules of their steps, all points at which processes are killed or files are removed, all contents of the cache directory", "why_tests_cant": "races and crashes depend on the schedule; a test runs a few schedules out of infinitely many", "anchors": ["src/ampform_dpd/io/cached.py:lambdify", "src/ampform_dpd/io/cached.py:_lambdify_impl"]}
{"id": "C103", "title": "Serialized models of spinless decays with any vertices and topologies", "statement": "For four spinless particles the full expression of a deserialized model is the squared modulus of one sum over the chains, with no alignment rotation and no dependence on the reference topology, also if the helicities in the vertices are not zero and if the topology of a chain does not agree with its vertices. A chain whose vertices have helicity zero contributes weight, d^J_00 of its helicity angle, lineshape and form factors; a parity vertex multiplies this by two or by zero, according to its parity factor. A chain with a non-zero helicity of a final state contributes nothing.", "quantifier": "all well-formed serialized models of spinless particles, numbers of chains, resonance spins, lineshapes, kinematic points and parameter values", "why_tests_cant": "identity of an unbounded sum over chains for all values", "anchors": ["src/ampform_dpd/io/serialization/amplitude.py:formulate", "src/ampform_dpd/io/serialization/amplitude.py:formulate_aligned_amplitude", "src/ampform_dpd/io/serialization/amplitude.py:formulate_chain_amplitude", "src/ampform_dpd/io/serialization/amplitude.py:formulate_recoupling"]}
{"id": "C104", "title": "The unit of mass of a serialized model does not matter", "statement": "If the masses, widths, Mandelstam variables and meson radii of a deserialized model are given in another unit of mass, angles do not change and the intensity only changes by one overall factor, the same at every kinematic point and for every value of the parameters: the inverse fourth power of the unit for chains with one built-in lineshape each.", "quantifier": "all well-formed serialized models, units, kinematic points, weights, built-in lineshapes and form factors", "why_tests_cant": "identity over all points of the Dalitz plot, spins, parameters and scale factors", "anchors": ["src/ampform_dpd/io/serialization/amplitude.py:formulate", "src/ampform_dpd/io/serialization/dynamics.py:formulate_dynamics", "src/ampform_dpd/io/serialization/dynamics.py:formulate_form_factor", "src/ampform_dpd/io/serialization/dynamics.py:formulate_breit_wigner", "src/ampform_dpd/io/serialization/dynamics.py:formulate_multichannel_breit_wigner"]}
{"id": "C105", "title": "Numbers in the texts of a serialized model", "statement": "A text is accepted as the weight of a chain exactly if it denotes a complex number: a decimal number, an imaginary number, a sum or difference of both, or the imaginary unit (i, j or J) with an optional sign, possibly in one pair of brackets, with spaces anywhere; the weight is exactly that number, and a real number if the imaginary part is zero. A text is accepted as spin or helicity exactly if it denotes a decimal number or a fraction of two with a non-zero denominator; n and n/2 are read as such for every integer n. A text is accepted as an integer exactly if it consists of digits with an optional sign. All other texts raise. Numbers in the file are taken as they are.", "quantifier": "all texts (without underscores, infinities and nan), all numbers", "why_tests_cant": "there are infinitely many texts; a test checks a few of each kind", "anchors": ["src/ampform_dpd/io/serialization/amplitude.py:_get_weight", "src/ampform_dpd/io/serialization/amplitude.py:_get_resonance_helicity", "src/ampform_dpd/io/serialization/amplitude.py:_get_final_state_helicities", "src/ampform_dpd/io/serialization/decay.py:to_decay"]}
{"id": "C106", "title": "Isobar mass and scattering angle are coordinates of the Dalitz plot", "statement": "For every isobar mass allowed by energy conservation (and positive masses with the right sum of the Mandelstam variables), the scattering angle is a real number exactly inside the Dalitz plot and on its boundary, that is, exactly if the Kibble function of the three masses is not positive. It is strictly between 0 and pi exactly in the interior, and 0 or pi exactly on the boundary. For a fixed isobar mass, every angle between 0 and pi belongs to exactly one point of the Dalitz plot, and the angle decreases strictly if the other Mandelstam variable increases.", "quantifier": "all pairs of different final states, all positive masses, all values of the Mandelstam variables", "why_tests_cant": "equivalences over all real masses and Mandelstam variables", "anchors": ["src/ampform_dpd/angles.py:formulate_scattering_angle"]}
{"id": "C107", "title": "Angles and intensity are smooth inside the Dalitz plot", "statement": "Inside the Dalitz plot, all scattering, theta-hat and zeta angles are n times continuously differentiable (for any n, also infinitely often, also analytic) functions of any parameters on which masses and Mandelstam variables depend in that way. The intensity of a formulated model is as smooth as the couplings, the lineshapes and the masses and Mandelstam variables, so a gradient with respect to all parameters and kinematic variables exists. The same holds for deserialized models, with weights instead of couplings. Breit-Wigner lineshapes with constant width are smooth wherever mass and width are not zero.", "quantifier": "all decays, serialized models and reference subsystems, orders of differentiability, parametrisations, and points inside the Dalitz plot", "why_tests_cant": "differentiability at every point of a continuum, for all models", "anchors": ["src/ampform_dpd/angles.py:formulate_scattering_angle", "src/ampform_dpd/angles.py:formulate_theta_hat_angle", "src/ampform_dpd/angles.py:formulate_zeta_angle", "src/ampform_dpd/__init__.py:DalitzPlotDecompositionBuilder.formulate", "src/ampform_dpd/dynamics/__init__.py:SimpleBreitWigner", "src/ampform_dpd/io/serialization/amplitude.py:formulate"]}
{"id": "C108", "title": "Interference: single parts and pairs of parts determine the intensity", "statement": "If the chains of a decay are divided into parts (for example resonances or subsystems), the intensity of the full model is the sum of the intensities of the models for the single parts plus the interference of all pairs of parts, where the interference of two parts is the intensity of the model for both minus those of the two single models. So fit fractions and pairwise interference fractions add up to one. The square root of the intensity is at most the sum of the square roots for the parts, the intensity is at most the number of parts times the sum for the parts, and for two parts the square root of the intensity is at least the difference of the square roots. All this holds for deserialized models as well.", "quantifier": "all decays and serialized models, all divisions of the chains into any number of parts, all couplings, lineshapes, parameter values and kinematic points", "why_tests_cant": "identities and inequalities over an unbounded number of chains and all values of the parameters", "anchors": ["src/ampform_dpd/__init__.py:DalitzPlotDecompositionBuilder.formulate", "src/ampform_dpd/__init__.py:DalitzPlotDecompositionBuilder.formulate_aligned_amplitude", "src/ampform_dpd/io/serialization/amplitude.py:formulate"]}
{"id": "C109", "title": "Warnings", "statement": "formulate emits a UserWarning exactly for a requested reference subsystem without decay chains (twice) and, if all_subsystems is set, for every subsystem without chains (once per helicity combination); the texts name the decay, the subsystems that exist and the one that does not. Warnings never change the result; with the default filters of Python each one is shown once. After mute_ampform_warnings() those about missing subsystems are neither shown nor raised, whatever the filters were, while the one about the reference subsystem is still treated as before.", "quantifier": "all decays, builder options, reference subsystems and warning filters", "why_tests_cant": "ranges over all decays and all filter configurations", "anchors": ["src/ampform_dpd/decay.py:ThreeBodyDecay.get_subsystem", "src/ampform_dpd/decay.py:_get_decay_description", "src/ampform_dpd/__init__.py:_check_reference_subsystems", "src/ampform_dpd/io/__init__.py:mute_ampform_warnings"]}
{"id": "C110", "title": "Exchange of two IDs of the final states", "statement": "If the IDs 1 and 2 of two final states are exchanged (with C82 this covers every renumbering), all alignment angles change sign, the helicity angles of the decay products become their supplement, the model can still be formulated, and with the renumbered reference subsystem its intensity at the same kinematic point is the same, if the couplings of each chain are multiplied by (-1)^(J + s0 + s_k) (spins of resonance, initial state and spectator; up to a phase common to all chains) and the two helicities of each decay coupling are exchanged. So, unlike a cyclic renumbering, an exchange of IDs changes the sign convention of the couplings.", "quantifier": "all decays, spins, bases of the couplings, reference subsystems, couplings, kinematic points, lineshapes that follow the renumbering (such as those of the Breit-Wigner builder)", "why_tests_cant": "identity between two models over all decays, spins and points of the Dalitz plot", "anchors": ["src/ampform_dpd/__init__.py:DalitzPlotDecompositionBuilder.formulate", "src/ampform_dpd/angles.py:formulate_zeta_angle", "src/ampform_dpd/angles.py:formulate_theta_hat_angle", "src/ampform_dpd/angles.py:formulate_scattering_angle", "src/ampform_dpd/decay.py:get_decay_product_ids", "src/ampform_dpd/dynamics/builder.py:BreitWignerBuilder"]}
{"id": "C111", "title": "Which couplings a model has and which chains they scale", "statement": "The couplings in parameter_defaults are exactly the production and decay couplings (or, with use_coefficients, the coefficients) of the chains for the helicities that conserve angular momentum: none is missing and none is superfluous. They are labelled by the LaTeX of the resonance: resonances with different LaTeX have no coupling in common, and setting all couplings with one LaTeX to zero gives exactly the model for the decay without the chains of that resonance; chains of resonances with the same LaTeX share a coefficient iff their indices (helicities or L, S) agree. Coefficients can take any values independently, while without use_coefficients the scales of the chains of one resonance are products, so that for two production and two decay vertices they are related: the two parametrisations are not equivalent.", "quantifier": "all decays, bases, options, helicities, LaTeX names and parameter values", "why_tests_cant": "exact set of parameters and independence of names for every decay; identity between two models for all parameter values", "anchors": ["src/ampform_dpd/__init__.py:DalitzPlotDecompositionBuilder.formulate_subsystem_amplitude", "src/ampform_dpd/__init__.py:_create_scaling_factors", "src/ampform_dpd/__init__.py:_create_coupling_symbol", "src/ampform_dpd/__init__.py:_get_coefficient_base"]}
{"id": "C112", "title": "LaTeX of lineshapes and recouplings", "statement": "Every lineshape and recoupling of the package can be rendered as LaTeX, whatever the LaTeX of its arguments (braces in it do no harm): the text is a fixed frame with the LaTeX of the shown arguments inserted unchanged. The LaTeX of a simple, a general and a multichannel Breit-Wigner determines that of the shown arguments, if these do not contain the separators. This is false for ChannelArguments, the argument of a multichannel Breit-Wigner that is itself never printed: its format string has single and double braces exchanged, so that rendering it always raises KeyError. LSRecoupling has the symbol of ParityRecoupling; only the number of arguments tells them apart.", "quantifier": "all LaTeX texts of the arguments, numbers of channels, format strings and values", "why_tests_cant": "all texts, including those with braces, as arguments of a formatted string", "anchors": ["src/ampform_dpd/dynamics/__init__.py:RelativisticBreitWigner", "src/ampform_dpd/dynamics/__init__.py:BreitWignerMinL", "src/ampform_dpd/dynamics/__init__.py:BuggBreitWigner", "src/ampform_dpd/dynamics/__init__.py:FlattéSWave", "src/ampform_dpd/dynamics/__init__.py:ChannelArguments", "src/ampform_dpd/dynamics/__init__.py:MultichannelBreitWigner", "src/ampform_dpd/dynamics/__init__.py:BreitWigner", "src/ampform_dpd/dynamics/__init__.py:SimpleBreitWigner", "src/ampform_dpd/io/serialization/amplitude.py:HelicityRecoupling", "src/ampform_dpd/io/serialization/amplitude.py:ParityRecoupling", "src/ampform_dpd/io/serialization/amplitude.py:LSRecoupling"]}
{"id": "C113", "title": "What the intensity depends on", "statement": "The intensity depends on the decay only through the spins of the particles, the IDs of the states, the LS couplings, the values of the lineshapes and the values of the couplings of each chain: two models whose chains can be paired such that these agree have the same intensity, whatever the order of the chains and the names, LaTeX, parities, masses and widths of the particles. If the particles are given other properties but the same spins, the model can still be formulated, and if different LaTeX of resonances remains different, the couplings can be given the values for which nothing changes. Two chains with the same quantum numbers and the same lineshape cannot be told apart: only the sum of their couplings matters.", "quantifier": "all decays, bases of the couplings, reference subsystems, lineshapes, couplings, kinematic points, and all changes of the properties of the particles that keep the spins", "why_tests_cant": "identity between two models over all decays, names and parameter values", "anchors": ["src/ampform_dpd/__init__.py:DalitzPlotDecompositionBuilder.formulate", "src/ampform_dpd/__init__.py:DalitzPlotDecompositionBuilder.formulate_subsystem_amplitude", "src/ampform_dpd/__init__.py:_create_coupling_symbol", "src/ampform_dpd/decay.py:Particle", "src/ampform_dpd/decay.py:ThreeBodyDecay"]}
{"id": "C114", "title": "Which model files can be formulated", "statement": "A serialized model whose kinematics are those of a decay of state 0 to the states 1, 2 and 3 and whose vertices can be read is formulated without error exactly if every chain has vertices of a known type (with a sign, for parity vertices), a weight, a half-integer resonance spin, a topology with one of the final states as spectator, a lineshape function of a known type with all its parameters (for the multichannel one: at least two channels with theirs), and form factor functions of a known type with all their parameters. One defect in one chain is enough for an error. Whether it can be formulated depends neither on cleanup_summations nor on the conversion of names to LaTeX.", "quantifier": "all model definitions with readable vertices and nonnegative spins, every number of chains, functions and channels", "why_tests_cant": "a defect can be in any chain, vertex, function or channel; tests load one valid file", "anchors": ["src/ampform_dpd/io/serialization/amplitude.py:formulate", "src/ampform_dpd/io/serialization/dynamics.py:formulate_dynamics", "src/ampform_dpd/io/serialization/dynamics.py:formulate_form_factor"]}
{"id": "C115", "title": "Upper bounds on the intensity", "statement": "For all real values of the angles and every reference subsystem, the alignment does not add strength: if all chains are in one subsystem k, the intensity is the sum of |A^k_λ|² over the helicities, whatever the alignment angles; with several subsystems its square root is at most the sum over k of the roots of these sums. The square root of full_expression is at most the sum over the chains of |lineshape| times the root of the summed squared couplings. With LS couplings at both vertices it is at most the sum over the chains of |lineshape|·|coupling|, and this is attained for a scalar resonance in a spinless decay. With Breit-Wigner lineshapes of constant width the intensity is bounded on the whole Dalitz plot by (Σ |coupling| / |mΓ|)². For a serialized model, the square root of the intensity is at most √(2 s0 + 1) times the sum over the chains of |weight|·|lineshape · form factors|, with a factor 2 for every parity vertex, where s0 is the spin of the initial state; for one chain without parity vertices the intensity is exactly (2 s0 + 1) (|weight|·|lineshape · form factors|·|d(θ)|)².", "quantifier": "all decays, spins, LS couplings, values of couplings, parameters, Mandelstam variables and angles", "why_tests_cant": "a maximum over the phase space, and over all spins and couplings, cannot be found by sampling; hit-and-miss generation of events relies on it", "anchors": ["src/ampform_dpd/__init__.py:DalitzPlotDecompositionBuilder.formulate", "src/ampform_dpd/__init__.py:DalitzPlotDecompositionBuilder.formulate_aligned_amplitude", "src/ampform_dpd/__init__.py:DalitzPlotDecompositionBuilder.formulate_subsystem_amplitude", "src/ampform_dpd/dynamics/builder.py:BreitWignerBuilder", "src/ampform_dpd/io/serialization/amplitude.py:formulate"]}
{"id": "C116", "title": "Resonances with different spins in projections of serialized models", "statement": "If all chains of a serialized model are in the same subsystem, the intensity integrated over the cosine of the decay angle is the sum over the spins J of the resonances of 2/(2J+1) times the squared strengths (weight, vertices, lineshape and form factors) summed over helicities, so resonances with different spins do not interfere.", "quantifier": "all model definitions with chains in one subsystem, all spins, vertices, weights and lineshapes, all values of the other symbols, all reference subsystems", "why_tests_cant": "integrals over a continuum, for all spins and values of the weights", "anchors": ["src/ampform_dpd/io/serialization/amplitude.py:formulate", "src/ampform_dpd/io/serialization/amplitude.py:formulate_aligned_amplitude", "src/ampform_dpd/io/serialization/amplitude.py:formulate_chain_amplitude"]}
{"id": "C117", "title": "Which recouplings can be formulated, and the exceptions otherwise", "statement": "formulate_recoupling(model, chain_idx, vertex_idx) returns an expression exactly if the chain exists and has two vertices, the vertex index is 0 or 1, and the vertex either has two children, two helicities and type helicity or parity with a known sign, or is an LS vertex with l and s that has no final state among its two children, in a chain with one propagator with a spin. Negative chain indices count from the end, negative vertex indices are not allowed. An index without chain is an IndexError (also for formulate_chain_amplitude), another number of vertices or vertex index is a ValueError, an unknown type or sign is a NotImplementedError and missing helicities are a KeyError.", "quantifier": "all model definitions with well-formed kinematics, all chain and vertex indices", "why_tests_cant": "unbounded number of models, chains, types and strings", "anchors": ["src/ampform_dpd/io/serialization/amplitude.py:formulate_recoupling", "src/ampform_dpd/io/serialization/amplitude.py:formulate_chain_amplitude", "src/ampform_dpd/io/serialization/amplitude.py:_get_child_spins"]}
{"id": "C118", "title": "Complex conjugation of couplings and lineshapes", "statement": "For real values of the angles, the intensity does not change if all couplings and all values of the lineshapes are replaced by their complex conjugates, in the LS and in the helicity basis, with and without use_coefficients, and for serialized models with weights, lineshapes and form factors. Hence, without dynamics or with real lineshapes the sign of the relative phases of the couplings cannot be observed, and with Breit-Wigner lineshapes of constant width conjugating the couplings is the same as changing the sign of all widths.", "quantifier": "all decays and model definitions, bases of the couplings, reference subsystems, values of the couplings, lineshapes and angles", "why_tests_cant": "an ambiguity of the fit parameters over all decays, spins and values of the parameters", "anchors": ["src/ampform_dpd/__init__.py:DalitzPlotDecompositionBuilder.formulate", "src/ampform_dpd/__init__.py:DalitzPlotDecompositionBuilder.formulate_subsystem_amplitude", "src/ampform_dpd/__init__.py:DalitzPlotDecompositionBuilder.formulate_aligned_amplitude", "src/ampform_dpd/io/serialization/amplitude.py:formulate", "src/ampform_dpd/dynamics/builder.py:BreitWignerBuilder"]}
{"id": "C119", "title": "Selection rule on the boundary of the Dalitz plot", "statement": "Where the Kibble function is zero all momenta are on one line: the decay angle of each subsystem is 0 or π, and the amplitude of a subsystem is zero for all helicities that do not conserve the projection of the angular momentum on that line, λ0 + λk = cos θ (λi - λj), for all couplings and lineshapes. For spinless particles, the intensity there is the squared modulus of the sum of the chains with the sign (cos θ)^J. For serialized models, the intensity there does not depend on the weights of chains with λR ≠ cos θ (λi - λj).", "quantifier": "all decays and model definitions, spins, values of couplings and lineshapes, masses, and points on the boundary of the Dalitz plot where the mass of the subsystem is between its thresholds", "why_tests_cant": "a conservation law over all spins and a continuum of points; a test checks single points, and numerical angles are never exactly 0 or π", "anchors": ["src/ampform_dpd/__init__.py:DalitzPlotDecompositionBuilder.formulate_subsystem_amplitude", "src/ampform_dpd/angles.py:formulate_scattering_angle", "src/ampform_dpd/io/serialization/amplitude.py:formulate", "src/ampform_dpd/io/serialization/amplitude.py:formulate_chain_amplitude"]}
{"id": "C120", "title": "Angles and intensity on the Dalitz plot with its boundary", "statement": "On the Dalitz plot with its boundary (Kibble function at most zero, all three pair masses strictly between their thresholds) every scattering, theta-hat and zeta angle is a real number of absolute value at most π, and is 0 or ±π exactly where the Kibble function is zero. All angles are continuous there, up to the boundary, and the intensity of a formulated or deserialized model is continuous if its couplings (weights) and lineshapes are. So on a compact set of such points the intensity has a maximum.", "quantifier": "all decays, serialized models, spins, masses, reference subsystems, continuous parametrisations, and points of the Dalitz plot including its boundary without the points where a pair mass reaches a threshold", "why_tests_cant": "continuity over a continuum of points; with floating point numbers, points on the boundary give acos arguments on either side of 1", "anchors": ["src/ampform_dpd/angles.py:formulate_scattering_angle", "src/ampform_dpd/angles.py:formulate_theta_hat_angle", "src/ampform_dpd/angles.py:formulate_zeta_angle", "src/ampform_dpd/__init__.py:DalitzPlotDecompositionBuilder.formulate", "src/ampform_dpd/io/serialization/amplitude.py:formulate"]}
{"id": "C121", "title": "Wigner functions and Legendre polynomials", "statement": "The Wigner functions in the amplitudes have the values of Wigner's formula (a sum over powers of cos(x/2) and sin(x/2) divided by factorials); d^J_00 is the Legendre polynomial P_J of the cosine. On the Dalitz plot, including its boundary, the intensity of a model for spinless particles, formulated or deserialized, is therefore the squared modulus of the sum over all chains of lineshape, couplings and P_J(z), where z is an explicit function of the masses and Mandelstam variables. Resonances whose spin is not a natural number do not contribute.", "quantifier": "all spins and projections, angles, decays and serialized models of spinless particles, couplings, lineshapes, masses and points of the Dalitz plot with its boundary", "why_tests_cant": "a polynomial identity for every spin and every point of a continuum", "anchors": ["src/ampform_dpd/__init__.py:DalitzPlotDecompositionBuilder.formulate_subsystem_amplitude", "src/ampform_dpd/angles.py:formulate_scattering_angle", "src/ampform_dpd/io/serialization/amplitude.py:formulate_chain_amplitude"]}
{"id": "C122", "title": "The published Λc → p π K model", "statement": "The model definition that comes with the documentation (docs/Lc2ppiK.json, 26 decay chains) can be formulated with the builder for Bugg's Breit-Wigner function of the documentation, with and without clean-up and for every translation of names to LaTeX; without a builder for that function type it cannot be formulated. The intensity is, for all values of parameters and variables, a nonnegative number: the incoherent sum over the helicities of the coherent sum of the aligned amplitudes with reference subsystem 2. Every symbol in it is an angle with a definition, a Mandelstam variable, or a parameter with a default value. If different resonances have different LaTeX names, each of the 26 weights of the file is the default value of its own parameter; this is so for the translation to_latex of the documentation, which is injective on names without parentheses and backslashes (names that differ by parentheses only, as L1405 and L(1405), have the same LaTeX). The masses of the states are those of the kinematics of the file. The amplitudes of the Λ resonances contain d^j only with second index -1/2, for both helicities of the proton (a consequence of C56). The lineshape of the scalar kaons is Bugg's formula in σ1 with the mass, width and slope of the file as default values; its Adler zero is m_π² - m_K²/2, not m_K² - m_π²/2, since the builder of the documentation passes the masses in the order of the node.", "quantifier": "all values of parameters, kinematic variables and special functions, name translations and clean-up options; the model definition is the published one", "why_tests_cant": "the documentation evaluates the model at sampled points with fixed parameters; nonnegativity and closedness concern all values of all parameters", "anchors": ["docs/Lc2ppiK.json", "docs/serialization.ipynb:formulate_bugg_breit_wigner", "docs/serialization.ipynb:to_latex", "src/ampform_dpd/io/serialization/amplitude.py:formulate", "src/ampform_dpd/io/serialization/dynamics.py:formulate_dynamics"]}
{"id": "C123", "title": "Iterators as arguments", "statement": "to_three_body_decay, convert_transitions and filter_min_ls accept any iterable of transitions: they give the same result (or exception) for a generator or iterator as for a list of the same transitions, and repeated calls with the same list give the same result. After a call with an iterator its elements are used up: to_three_body_decay raises ValueError then, convert_transitions returns an empty tuple, or, if the earlier call raised for a transition that cannot be converted, continues with the transitions after that one. (False of filter_min_ls: for every generator over transitions it accepts in a list, it returns an empty tuple without an exception.)", "quantifier": "all transitions, selections of nodes and min_ls arguments; any number of calls with the same object", "why_tests_cant": "concerns every history of calls with the same object and every collection of transitions; the tests only pass tuples", "anchors": ["src/ampform_dpd/adapter/qrules.py: to_three_body_decay, convert_transitions, filter_min_ls"]}
{"id": "C124", "title": "Models are formulated for three-body decays only", "statement": "If the builder or the function for serialized models returns an amplitude model, the decay has exactly the states 0, 1, 2 and 3: for decays to two or to more than three particles, or with other state IDs, there is always an exception, never a model that leaves a particle out. If one of these states is missing, it is KeyError; formulate_aligned_amplitude raises ValueError whenever the number of different state IDs is not four.", "quantifier": "all decays and configurations of the builder, all model definitions, with any number of states and chains", "why_tests_cant": "ranges over every set of states; the tests only use three-body decays", "anchors": ["src/ampform_dpd/__init__.py: DalitzPlotDecompositionBuilder.formulate, formulate_aligned_amplitude", "src/ampform_dpd/io/serialization/amplitude.py: formulate, formulate_aligned_amplitude"]}
{"id": "C125", "title": "Custom lineshape builders of the documentation", "statement": "The builder formulate_gaussian of the documentation returns a lineshape for every chain whose resonance decays to two of the final states 1, 2 and 3; its value is exp(-(√σ - m)²/(2 σ_R²)), at most 1 and 1 exactly at the mass of the resonance, with the mass and the square of the width of the resonance as default values. The builder formulate_breit_wigner (with BreitWignerMinL) returns exactly for the chains with LS couplings at both nodes and raises AttributeError otherwise; it is i/(mΓ) at the mass of the resonance; if the LaTeX names of initial state, spectator and resonance differ, every parameter has the value of the particle in its name. A model formulated with these builders, BreitWignerBuilder or none for each chain leaves no symbol undefined. The mass of the initial state is in such a model twice, as m0 in the angles and as a second, independent parameter in the BreitWignerMinL lineshapes, which do not contain m0.", "quantifier": "all chains, particles, values of parameters and kinematic variables, form factors and width functions; any assignment of the builders to the chains of a decay", "why_tests_cant": "the notebooks use one decay and fixed parameter values; closedness and the values hold for all chains and all values of the parameters", "anchors": ["docs/index.ipynb: formulate_gaussian", "docs/lc2pkpi.ipynb: formulate_breit_wigner", "src/ampform_dpd/dynamics/__init__.py: BreitWignerMinL", "src/ampform_dpd/__init__.py: DynamicsConfigurator.register_builder"]}
{"id": "C126", "title": "Sub-intensities of the documentation", "statement": "compute_sub_intensity of the documentation returns, for the LaTeX of a resonance, the intensity of the model that has only the chains of that resonance, for the same values of all parameters, and leaves the parameters of the function as they were. In a loop over resonances every result is that of a first call.", "quantifier": "all decays and reference subsystems 1, 2 and 3, all values of the couplings and of everything else, all LaTeX texts without comma, space or square bracket that contain more than numbers and are not part of the names of the couplings; models with and without coefficients, with balanced braces in the LaTeX in the former case; all sequences of calls", "why_tests_cant": "the notebooks plot it for one decay and one value of the couplings; whether a resonance is left out depends on the texts of all names and indices of the couplings", "anchors": ["docs/jpsi2ksp.ipynb: compute_sub_intensity", "docs/xib2pkk.ipynb: compute_sub_intensity", "src/ampform_dpd/__init__.py: DalitzPlotDecompositionBuilder.formulate"]}
{"id": "C127", "title": "Contributions of selected resonances in the comparisons", "statement": "compute_sub_intensities of the comparisons with AmpForm, called for a model without coefficients with the LaTeX texts of some resonances, returns the intensity of the model for the decay with the chains whose LaTeX contains one of these texts, for the same values of all parameters: the full intensity if all resonances are selected, zero if none is. It leaves the parameters of the function as they were. For a model with coefficients (use_coefficients) it leaves nothing out: it returns the full intensity whatever is selected.", "quantifier": "all decays, reference subsystems 1, 2 and 3, selections, values of the couplings and of everything else; LaTeX texts as in C126", "why_tests_cant": "the notebooks plot it for one decay; only the production couplings are set to zero, and whether that leaves out a chain depends on the texts of all couplings", "anchors": ["docs/comparison/jpsi2phipipi.ipynb: compute_sub_intensities, _set_couplings_to_zero, _get_couplings", "docs/comparison/jpsi2pipipi.ipynb: compute_sub_intensities, _set_couplings_to_zero, _get_couplings"]}
{"id": "C128", "title": "Redundant parameters", "statement": "The couplings and the lineshapes of a formulated model enter the intensity only through the product of lineshape and couplings of each chain, up to a phase common to all chains. So the production couplings of a resonance can be multiplied by any nonzero number if its decay couplings are divided by it, all production couplings can be multiplied by a common phase, the coefficients of use_coefficients can replace the products of couplings, and the normalisation of the lineshapes of a resonance can be moved into its coefficients, all without effect on the intensity at any point. A fit cannot determine these numbers.", "quantifier": "all decays, bases, reference subsystems 1, 2 and 3, lineshapes that do not depend on helicities, values of all parameters and variables, and factors", "why_tests_cant": "a test compares a few values of the couplings; the redundancy is a statement about all values of all parameters and all points of the Dalitz plot", "anchors": ["src/ampform_dpd/__init__.py: DalitzPlotDecompositionBuilder.formulate, formulate_subsystem_amplitude", "src/ampform_dpd/__init__.py: _create_scaling_factors, _create_coupling_symbol"]}
{"id": "C129", "title": "Evaluation on a grid over the Dalitz plot", "statement": "The recipe of the notebooks for a plot over two Mandelstam variables sigma_i and sigma_j of a formulated model, from a builder or from a model file, is right: the dictionary of definitions it computes (all angles and the third Mandelstam variable, with the definitions and then the masses inserted) refers to sigma_i and sigma_j only; data to which the values of these definitions are added are a point of the model, that is, all angles have the value of their definitions in the model, the sum rule is met and the intensity is the one at the point of the Dalitz plot with these sigma_i and sigma_j; such data exist for all points of the Dalitz plot with its boundary, and outside the Dalitz plot the angles are undefined where those of the model are. The range of the grid is the exact range of the Mandelstam variable inside the Dalitz plot, widened by a twentieth on both sides.", "quantifier": "all decays, lineshapes, options of formulate, deserialized models, choices of two different Mandelstam variables, masses, points and values of the parameters", "why_tests_cant": "a notebook shows one plot of one decay; the choice of variables and the insertion of definitions into each other must be right for every model and every point", "anchors": ["docs/xib2pkk.ipynb, docs/jpsi2ksp.ipynb: definitions, dalitz_data, x_min, x_max", "docs/serialization.ipynb: x_min, x_max", "src/ampform_dpd/__init__.py: AmplitudeModel.variables, AmplitudeModel.invariants, AmplitudeModel.masses"]}
{"id": "C130", "title": "Free and fixed parameters of the numerical intensity", "statement": "The notebooks split the parameters of a model into free ones (couplings with production or decay in the name) and fixed ones, and insert the values of the fixed ones. Every parameter is in exactly one of the two dictionaries, with its default value. For a model with couplings the free parameters are exactly the couplings of the chains and the fixed ones exactly the masses, widths and radii; the resulting expression has the value of the model's intensity with these at their defaults, whatever the couplings, angles and Mandelstam variables; it refers to nothing but angles, Mandelstam variables and free parameters. For a model formulated with use_coefficients=True no parameter is free: the function has no parameters left.", "quantifier": "all decays with ordinary lineshapes (including every Breit-Wigner lineshape of the package), options of formulate and values of couplings, angles and Mandelstam variables", "why_tests_cant": "the notebooks run two decays; that no parameter is lost, inserted twice or left without value must hold for every model", "anchors": ["docs/jpsi2ksp.ipynb, docs/xib2pkk.ipynb: free_parameters, fixed_parameters, intensity_func", "src/ampform_dpd/__init__.py: AmplitudeModel.parameter_defaults, AmplitudeModel.full_expression"]}
{"id": "C131", "title": "Decay products of a subsystem and labels of the Dalitz plot", "statement": "get_decay_products of the serialization notebook returns, for the subsystem of any chain of a decay, the two states the resonance decays to, and for each of the IDs 1, 2, 3 the two other final states in the order in which the decay stores them, also if no chain belongs to that subsystem. For exactly the IDs that are not IDs of final states (the initial state included) it raises ValueError. The label of each axis names the two particles whose invariant mass squared is the Mandelstam variable of the axis, in every event.", "quantifier": "all valid decays, chains, IDs and events", "why_tests_cant": "the notebook shows one decay; a wrong label is not seen by any numerical test", "anchors": ["docs/serialization.ipynb: get_decay_products, sigma_labels", "src/ampform_dpd/decay.py: ThreeBodyDecay.final_state, ThreeBodyDecayChain.decay_products"]}
{"id": "C132", "title": "Intensity functions of two Mandelstam variables", "statement": "The loop of the serialization notebook that builds one intensity function for each Mandelstam variable gives, for each k in 1, 2, 3, a function whose arguments are at most the two Mandelstam variables other than sigma_k: no parameter, angle or indexed symbol is left. At every point of the Dalitz plot for the masses of the model file, also on the boundary, the angles and the third variable it computes exist, and its value is the intensity of the model at the default values of all parameters. Two evaluations with the same two arguments give the same value, the value is real and not negative, and the functions for different k agree at the same point.", "quantifier": "all readable model definitions (with or without custom lineshapes, if no parameter has the name of an angle or a Mandelstam variable), all three choices of k, all points of the Dalitz plot", "why_tests_cant": "the notebook checks the number of arguments for one model; the equality with the model must hold for every model and at every point", "anchors": ["docs/serialization.ipynb: intensity_expr, intensity_funcs", "src/ampform_dpd/__init__.py: AmplitudeModel.variables, AmplitudeModel.parameter_defaults, AmplitudeModel.invariants, AmplitudeModel.masses"]}
{"id": "C133", "title": "Table of decays without duplicates", "statement": "The table of decay chains in the Xib notebook, made from a dictionary whose keys are the resonance and the names of its decay products, shows chains of the decay only, shows every decay (resonance and ordered names of its products) and shows none twice. Of the chains with the same decay it shows the last one. If the final states have different names, the chains that are merged have the same parent, resonance, decay products and spectator, so that only their couplings can differ; with identical particles, chains of different subsystems are merged.", "quantifier": "all three-body decays and all their chains (the last part: all valid decays with different names of the final states)", "why_tests_cant": "the notebook shows one decay; the table must be complete and free of duplicates for every list of chains", "anchors": ["docs/xib2pkk.ipynb: get_decay_identifier, chains", "src/ampform_dpd/decay.py: ThreeBodyDecayChain.decay_products, ThreeBodyDecayChain.resonance"]}
{"id": "C134", "title": "Simplified expressions for selected resonances, over a session", "statement": "In the comparisons with AmpForm, the expression that is shown after any sequence of selections has the value of the intensity in which each parameter has the value of its button if its name contains the LaTeX of a selected resonance and zero otherwise, and in which variables that are defined as numbers have these numbers, although earlier results are reused through a dictionary of hashes that both models share. The value does not depend on parameters or fixed variables any more. A selection that is repeated at any later time gives the identical expression and adds nothing to the dictionary.", "quantifier": "all sequences of calls with any expressions, parameters, variables and selections, all values of the symbols; SymPy's replacement and simplification preserve values and different objects have different hashes (the repetition: every hash function)", "why_tests_cant": "reuse of results depends on the history of selections, which is unbounded", "anchors": ["docs/comparison/jpsi2pipipi.ipynb: _get_symbol_values, _simplify, __EXPRS", "docs/comparison/jpsi2phipipi.ipynb: _get_symbol_values, _simplify, __EXPRS"]}
