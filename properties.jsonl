{"id": "C01", "title": "Degrees of freedom are numbered without gaps or collisions", "statement": "After nodal_dofs() on a frame model, the active degrees of freedom of all nodes carry exactly the numbers 0, 1, ..., model.dofs-1, each number on exactly one (node, direction) pair; a direction that no element activates carries -1.", "quantifier": "every list of nodes (2D or 3D) and every list of elements of any kinds connecting them, whatever the numbering state left by earlier calls", "why_tests_cant": "the numbering depends on arbitrary mixes of elements and nodes; a collision or a gap in one unusual mix silently assembles two unknowns into one equation", "anchors": ["metku/framefem/framefem.py:FrameFEM.nodal_dofs", "metku/framefem/elements/ebbeam.py:EBBeam.init_dofs", "metku/framefem/elements/rod.py:Rod.init_dofs"]}
{"id": "C02", "title": "The global stiffness matrix is the sum of the element stiffness matrices", "statement": "For every model, the strain energy computed from the assembled global stiffness matrix, u.K.u, equals the sum over elements of the element energies evaluated at the element's own nodal values of u; entries between two unknowns no element shares are zero.", "quantifier": "every model with numbered degrees of freedom, every number and order of elements, every displacement vector", "why_tests_cant": "assembly uses numpy fancy-index addition that loses contributions when an index repeats; only a statement over all connectivities excludes a lost or doubled contribution", "anchors": ["metku/framefem/framefem.py:FrameFEM.global_stiffness_matrix"]}
{"id": "C03", "title": "Assembled stiffness is symmetric and never produces negative energy", "statement": "With positive Young's modulus, area, second moment and length, every element stiffness matrix (bar, beam, released beam, semi-rigid beam, spring) is symmetric and positive semidefinite, and so is the assembled global stiffness matrix.", "quantifier": "all element orientations, all positive section and material data, all models, all displacement vectors", "why_tests_cant": "a sign error in one matrix entry shows only for displacement patterns that excite it; tests fix a few geometries", "anchors": ["metku/framefem/elements/ebbeam.py:EBBeam.local_stiffness_matrix", "metku/framefem/elements/rod.py:Rod.stiffness_matrix", "metku/framefem/elements/eb_semi_rigid_beam.py:EBSemiRigidBeam.local_stiffness_matrix"]}
{"id": "C04", "title": "Rigid-body motion causes no forces", "statement": "Translating an element arbitrarily, or rotating it by an infinitesimal angle about any point, yields zero nodal forces from its stiffness matrix; hence reported internal forces depend only on deformation.", "quantifier": "every element orientation and length, every translation vector, every rotation centre and angle amplitude", "why_tests_cant": "invariance is over a continuum of motions and orientations", "anchors": ["metku/framefem/elements/ebbeam.py:EBBeam.stiffness_matrix,transformation_matrix", "metku/framefem/elements/rod.py:Rod.stiffness_matrix"]}
{"id": "C05", "title": "The load vector superposes loads and isolates load cases", "statement": "The global load vector of a load case is the sum of the contributions of the loads carrying that case's id, independent of the order in which loads were added, and loads of other cases have no influence; nothing is added at inactive degrees of freedom.", "quantifier": "every list of loads, every interleaving of load cases, every model", "why_tests_cant": "order independence and non-interference are statements about all permutations and all other loads", "anchors": ["metku/framefem/framefem.py:FrameFEM.global_load_vector", "metku/framefem/framefem.py:PointLoad.load_and_dofs"]}
{"id": "C06", "title": "Linear static solution satisfies the supports and equilibrium", "statement": "When linear_statics succeeds, the returned displacements are zero at every supported degree of freedom and satisfy K u = p at every unsupported one, where K and p are the assembled global quantities; every node receives the entry of its own degree of freedom.", "quantifier": "every model, every set of supports (including duplicates), every load case", "why_tests_cant": "index bookkeeping when rows/columns are deleted and solutions are scattered back must be right for every support pattern", "anchors": ["metku/framefem/framefem.py:FrameFEM.linear_statics", "metku/framefem/framefem.py:FrameFEM.supp_dofs"]}
{"id": "C07", "title": "Superposition of load cases", "statement": "With a nonsingular reduced stiffness, the displacements for a combination a*p1 + b*p2 of two load vectors are the same combination of the two separate solutions, so combining results equals analysing the combined load.", "quantifier": "all models, supports, load vectors, scalars", "why_tests_cant": "linearity is a universally quantified law", "anchors": ["metku/framefem/framefem.py:FrameFEM.linear_statics"]}
{"id": "C08", "title": "Bar forces are in equilibrium and positive in tension", "statement": "For a bar element the two reported end axial forces are equal, and they are positive exactly when the distance between the displaced ends (first order) has grown; the nodal forces implied by the stiffness matrix are the axial force along the bar axis, equal and opposite.", "quantifier": "every orientation, section, displacement", "why_tests_cant": "sign conventions must hold in all four quadrants of orientation", "anchors": ["metku/framefem/elements/rod.py:Rod.internal_forces", "metku/framefem/elements/rod.py:Rod.stiffness_matrix"]}
{"id": "C09", "title": "Equivalent nodal loads are statically equivalent to the member load", "statement": "The equivalent nodal forces of a linearly varying line load on a beam have the same resultant force and the same moment about the first node as the distributed load itself.", "quantifier": "all lengths, all end intensities q1,q2, local and global directions, all orientations", "why_tests_cant": "resultants must match for a continuum of load shapes and orientations", "anchors": ["metku/framefem/elements/ebbeam.py:EBBeam.equivalent_nodal_loads"]}
{"id": "C10", "title": "End releases transmit no released force", "statement": "For a beam with released end degrees of freedom the condensed stiffness produces zero force in every released direction for any displacement, stays symmetric positive semidefinite, and equals the stiffness obtained by eliminating the released displacement exactly.", "quantifier": "every subset of released degrees of freedom for which the condensation is defined, every displacement", "why_tests_cant": "there are many subsets and a continuum of displacements; hinge modelling errors change moments silently", "anchors": ["metku/framefem/elements/ebbeam.py:EBBeam.local_stiffness_matrix"]}
{"id": "C11", "title": "Line-load effect is proportional to the load scale factor", "statement": "Multiplying the scale factor f of a line load by s multiplies the equivalent nodal load vector by s, in every load direction.", "quantifier": "every load direction, element orientation, factor", "why_tests_cant": "tests usually use the default factor 1, where a wrong power of the factor is invisible", "anchors": ["metku/framefem/elements/ebbeam.py:EBBeam.equivalent_nodal_loads", "metku/framefem/framefem.py:LineLoad.load_and_dofs"]}
{"id": "C12", "title": "Several line loads on one member superpose in the member forces", "statement": "If a beam carries several line loads in one load case, the fixed-end forces subtracted when computing its internal forces are the sum of the fixed-end forces of all of them, in any order.", "quantifier": "every list of line loads on an element", "why_tests_cant": "requires histories of several load additions; order matters only when bookkeeping is wrong", "anchors": ["metku/framefem/elements/ebbeam.py:EBBeam.equivalent_nodal_loads", "metku/framefem/elements/ebbeam.py:EBBeam.internal_forces"]}
{"id": "C13", "title": "Analysis after editing the model uses the current model", "statement": "If elements are added after an analysis, the next linear_statics call numbers the degrees of freedom of the current model before assembling.", "quantifier": "every history of model edits and analyses", "why_tests_cant": "it is a statement about histories of edits", "anchors": ["metku/framefem/framefem.py:FrameFEM.linear_statics", "metku/framefem/framefem.py:FrameFEM.nodal_dofs"]}
{"id": "C14", "title": "Beam shape functions interpolate the nodal values", "statement": "The beam's shape functions at the two ends reproduce the nodal displacement values: at x=0 they select the first node's deflection, at x=L the second node's deflection, and rotation functions vanish at both ends; they represent every cubic deflection.", "quantifier": "every length and every position", "why_tests_cant": "interpolation identities must hold for all lengths; for L=1 a wrong power of L is invisible", "anchors": ["metku/framefem/elements/ebbeam.py:EBBeam.shape_fun"]}
{"id": "C15", "title": "Substituting a design keeps every variable inside its bounds and invalidates old analysis results", "statement": "After substitute_variables(x) each free design variable holds x_i clipped to its own [lb, ub], locked variables are unchanged, and every load case is marked as needing a new analysis.", "quantifier": "every problem, every vector x (inside or outside the bounds), every pattern of locked variables", "why_tests_cant": "out-of-range points and lock patterns form an infinite family; stale analysis results give plausible numbers", "anchors": ["metku/optimization/structopt.py:OptimizationProblem.substitute_variables", "metku/optimization/variables.py:Variable.substitute"]}
{"id": "C16", "title": "The feasibility verdict agrees with the constraints", "statement": "The problem's feasibility check answers yes exactly when every constraint value respects its own type (<=, >=, =) within the stated tolerance.", "quantifier": "every problem, every mixture of constraint types, every point", "why_tests_cant": "mixtures of constraint types and borderline values cannot be enumerated", "anchors": ["metku/optimization/structopt.py:OptimizationProblem.feasible", "metku/optimization/solvers/optsolver.py:OptSolver.is_feasible"]}
{"id": "C17", "title": "CONLIN approximation is exact to first order and convex", "statement": "The convex-linearised function agrees with the original in value and gradient at the expansion point, for every sign pattern of the gradient, and is convex for positive design variables.", "quantifier": "every expansion point with positive coordinates, every gradient, every dimension", "why_tests_cant": "first-order exactness is needed for every sign pattern in every dimension", "anchors": ["metku/optimization/opt_functions.py:conlin_fun"]}
{"id": "C18", "title": "MMA approximation is exact to first order and lives inside its asymptotes", "statement": "The moving-asymptotes approximation agrees with the original in value and gradient at the expansion point for every sign pattern of the gradient; the asymptotes chosen by the solver always strictly enclose the current point and the subproblem's bounds stay strictly between them.", "quantifier": "every iteration history, every gradient, every dimension, all bounds lb<ub", "why_tests_cant": "the asymptote update depends on the whole iteration history", "anchors": ["metku/optimization/opt_functions.py:mma_fun", "metku/optimization/solvers/mma.py:MMA.take_action,MMAProblem"]}
{"id": "C19", "title": "Branching never loses a discrete solution", "statement": "When the branch-and-bound solver splits on a discrete variable, every allowed value of that variable inside the parent's bounds lies in exactly one child, and the fractional relaxed value lies in neither.", "quantifier": "every finite set of allowed values, every fractional value, every parent interval", "why_tests_cant": "one lost value can hide the optimum only for particular instances", "anchors": ["metku/optimization/solvers/bnb.py:BnB.branch", "metku/optimization/variables.py:DiscreteVariable.smaller_discrete_value,larger_discrete_value"]}
{"id": "C20", "title": "The solver's best-so-far record is feasible and never gets worse", "statement": "Along any run of the iterative solver driver, the recorded best objective never increases, it belongs to a visited feasible point, and no visited feasible point has a smaller objective.", "quantifier": "every sequence of iterates a solver may produce (any step rule), every problem", "why_tests_cant": "it is an invariant over all iteration histories", "anchors": ["metku/optimization/solvers/optsolver.py:OptSolver.solve"]}
{"id": "C21", "title": "Branch and bound returns a global optimum", "statement": "If the bounding routine returns a valid lower bound of each subproblem and branching covers it, then when branch and bound stops with no open node, no feasible discrete point is better than the incumbent.", "quantifier": "every problem, every sequence of node selections, every valid bounding oracle", "why_tests_cant": "optimality is a statement about the whole (unenumerated) feasible set and all search orders", "anchors": ["metku/optimization/solvers/bnb.py:BnB.solve"]}
{"id": "C22", "title": "Penalty functions charge nothing for feasible designs and never reward violation", "statement": "For each penalty function offered by the problem, the added term is zero at every feasible point and nonnegative at every point, for all constraint types.", "quantifier": "all constraint values, types, penalty factors >= 0", "why_tests_cant": "sign errors show only for constraint types a test does not use", "anchors": ["metku/optimization/structopt.py:OptimizationProblem.exact_penalty_fun,exterior_penalty_fun"]}
{"id": "C23", "title": "Multiplier updates keep inequality multipliers nonnegative and per-bound", "statement": "After every multiplier update all inequality and bound multipliers are nonnegative and each bound's new multiplier depends on that bound's own previous multiplier.", "quantifier": "every sequence of updates, every point", "why_tests_cant": "an invariant over histories; a mixed-up multiplier is invisible on the first update", "anchors": ["metku/optimization/structopt.py:OptimizationProblem.update_lag_mult"]}
{"id": "C24", "title": "Objective evaluation honours locked variables", "statement": "Evaluating the objective at x assigns x to the free variables in order and leaves locked variables at their locked values.", "quantifier": "every lock pattern, every x", "why_tests_cant": "needs all lock patterns; without locked variables the mistake is invisible", "anchors": ["metku/optimization/objective.py:ObjectiveFunction.__call__"]}
{"id": "C25", "title": "Neighbouring discrete values bracket the current value tightly", "statement": "The largest smaller and smallest larger allowed values returned for x are allowed values strictly below / above x with no allowed value strictly between them and x; when none exists the call reports an error instead of a value.", "quantifier": "every finite value list in any order, every x", "why_tests_cant": "unsorted and repeated value lists of any length", "anchors": ["metku/optimization/variables.py:DiscreteVariable.smaller_discrete_value,larger_discrete_value"]}
{"id": "C26", "title": "Particle swarm respects the design space and improves monotonically", "statement": "In every swarm iteration, whatever the random numbers, particle positions stay inside the variable bounds, velocities stay inside the velocity limits, and once a feasible point is recorded the recorded best stays feasible and its objective never increases.", "quantifier": "all random sequences, all problems, all iteration counts", "why_tests_cant": "quantifies over all random schedules", "anchors": ["metku/optimization/solvers/pso.py:PSO.update_velocity,PSO.update_best,Particle.move"]}
{"id": "C27", "title": "Bound tightening removes no feasible design", "statement": "Feasibility-based bound tightening in branch and bound keeps every point that satisfies the linear constraints and the bounds inside the tightened bounds.", "quantifier": "every set of linear constraints of any type, all bounds, all feasible points", "why_tests_cant": "a cut-off feasible point is only noticed when it happens to be the optimum", "anchors": ["metku/optimization/solvers/bnb.py:BnB.feasibility_tightening"]}
{"id": "C28", "title": "Locked variables do not move", "statement": "Substituting a value into a locked design variable, of any kind, changes neither its stored value nor the structure.", "quantifier": "every kind of variable, every value", "why_tests_cant": "each variable class overrides the operation; all values", "anchors": ["metku/optimization/variables.py:Variable.substitute,IndexVariable.substitute"]}
{"id": "C29", "title": "Section classification is monotone in slenderness", "statement": "For each plate-element rule, a larger width-to-thickness ratio never gives a better (smaller) class, a smaller epsilon never gives a better class, and the class is always one of 1,2,3,4.", "quantifier": "all ratios, all epsilon in (0,1], all neutral-axis positions in range", "why_tests_cant": "monotonicity over continuous parameters and branch boundaries", "anchors": ["metku/eurocodes/en1993/en1993_1_1.py:internal_part_in_bending,internal_part_in_compression,internal_part_comp_bend,outstand_part_in_compression,CHS_class"]}
{"id": "C30", "title": "Combined classification reduces to the pure cases", "statement": "The rule for combined compression and bending gives the pure-compression class when the whole part is compressed (alpha=1, psi=1) and the pure-bending class when half of it is (alpha=0.5, psi=-1).", "quantifier": "all ratios, all epsilon in (0,1]", "why_tests_cant": "agreement of two piecewise rules over continuous arguments", "anchors": ["metku/eurocodes/en1993/en1993_1_1.py:internal_part_comp_bend"]}
{"id": "C31", "title": "Classification uses the material's epsilon for every steel grade", "statement": "For every yield strength, the class of a compressed part computed from the section's own epsilon is the Table 5.2 class for that epsilon.", "quantifier": "all yield strengths, including those below 235 MPa, all ratios", "why_tests_cant": "the defect region (epsilon > 1) is missed by tests with common grades", "anchors": ["metku/eurocodes/en1993/en1993_1_1.py:internal_part_in_compression,outstand_part_in_compression", "metku/materials/steel_data.py:steels"]}
{"id": "C32", "title": "The buckling reduction factor is a proper reduction factor", "statement": "For every nonnegative slenderness and every buckling curve, the reduction factor is defined (no domain error), lies in (0,1], does not increase with slenderness or with the imperfection factor beyond slenderness 0.2, equals 1 up to slenderness 0.2, and never exceeds the Euler value 1/slenderness^2.", "quantifier": "all slenderness values >= 0, all imperfection factors of the curves", "why_tests_cant": "bounds and monotonicity over a continuum; absence of a math domain error cannot be sampled", "anchors": ["metku/eurocodes/en1993/en1993_1_1.py:buckling_reduction_factor", "metku/structures/steel/steel_member.py:SteelMember.buckling_strength"]}
{"id": "C33", "title": "The equivalent moment factor stays within its code range and ignores member direction", "statement": "For all end and span moments and both load types, the equivalent moment factor lies between 0.4 and 1.0, and swapping the two end moments does not change it.", "quantifier": "all real end moments, span moments, load types", "why_tests_cant": "many nested branches over three continuous arguments", "anchors": ["metku/eurocodes/en1993/en1993_1_1.py:equivalent_moment_factor"]}
{"id": "C34", "title": "Fire reduction factors exist and decrease over the whole temperature range", "statement": "For every steel temperature between 20 and 1200 degrees the carbon-steel reduction factors are defined, lie in [0,1], agree with the table at tabulated temperatures and never increase with temperature.", "quantifier": "all temperatures in [20,1200], all tabulated properties", "why_tests_cant": "tests hit tabulated temperatures; the gaps between them are a continuum", "anchors": ["metku/eurocodes/en1993/en1993_1_2.py:reduce_property,linear_interpolation"]}
{"id": "C35", "title": "Plate-buckling reduction factors are continuous, monotone and at most one", "statement": "Reduction factors for internal and outstand compression elements are defined, in (0,1], equal to one up to the limiting slenderness, continuous there and non-increasing in slenderness, for all stress ratios of the code's range.", "quantifier": "all slenderness > 0, all stress ratios in [-3,1]", "why_tests_cant": "monotonicity and continuity across a branch boundary depending on a square root", "anchors": ["metku/eurocodes/en1993/en1993_1_5.py:reduction_factor_internal,reduction_factor_outstand"]}
{"id": "C36", "title": "Effective widths partition the effective part and never exceed the plate", "statement": "The two edge strips of an internal element sum to the effective width, are nonnegative, and the effective width is at most the compressed width of the plate; for rho=1 and pure compression the whole plate is effective.", "quantifier": "all widths >= 0, rho in [0,1], psi <= 1", "why_tests_cant": "continuous parameters with branch switches", "anchors": ["metku/eurocodes/en1993/en1993_1_5.py:effective_width_internal,effective_width_outstand"]}
{"id": "C37", "title": "Buckling factors follow the code table over the whole stress-ratio range", "statement": "For internal and outstand elements the buckling factor is defined and positive for every stress ratio in the table, takes the tabulated values at psi = 1, 0, -1, and decreases as the stress ratio grows (more uniform compression is never more favourable).", "quantifier": "all stress ratios in (-3,1], both edge conditions", "why_tests_cant": "piecewise formulas over a continuum; boundary points are exactly where code branches go wrong", "anchors": ["metku/eurocodes/en1993/en1993_1_5.py:buckling_factor_internal,buckling_factor_outstand"]}
{"id": "C38", "title": "Hollow-section properties stay consistent under dimension edits", "statement": "After any sequence of assignments to height, width and thickness of a rectangular hollow section, its properties equal those of a newly constructed section with the final dimensions, and its two shear areas add up to its area.", "quantifier": "every sequence of dimension assignments, all dimensions", "why_tests_cant": "it is a statement about edit histories and all dimensions", "anchors": ["metku/sections/steel/RHS.py:RHS.__setattr__,RHS.update_properties,RHS.__init__"]}
{"id": "C39", "title": "Member buckling resistance is bounded by plastic resistance and Euler load and falls with length", "statement": "For every member, the flexural buckling resistance is positive, at most A*fy, at most the Euler load, and does not increase when the member gets longer or its buckling-length factor grows.", "quantifier": "all positive section data, lengths, length factors, curves", "why_tests_cant": "inequality chain over continuous data", "anchors": ["metku/structures/steel/steel_member.py:SteelMember.buckling_strength,ncrit,slenderness"]}
{"id": "C40", "title": "The member utilisation reported by design covers every check", "statement": "The value returned by design is at least the utilisation of every section check (axial, shear, bending, interaction) at every location and, when compression is present, of both buckling checks and both beam-column checks; it equals one of them or zero.", "quantifier": "every list of sections and internal forces", "why_tests_cant": "quantifies over arbitrary numbers of sections and force combinations", "anchors": ["metku/structures/steel/steel_member.py:SteelMember.design,check_sections"]}
{"id": "C41", "title": "Constraints are evaluated with an up-to-date structural analysis", "statement": "Whenever a constraint that depends on a structural analysis is evaluated, the analysis results it reads were computed for exactly the structure it is evaluated for.", "quantifier": "every history of substitutions, constraint and objective evaluations, analyses, feasibility checks, locks and unlocks on a problem", "why_tests_cant": "A stale analysis only appears for particular orders of calls; a test fixes one order, and a stale number looks plausible.", "anchors": ["metku/optimization/constraints.py: Constraint.__call__", "metku/optimization/structopt.py: OptimizationProblem.fea, substitute_variables", "metku/optimization/variables.py: Variable.lock"]}
{"id": "C42", "title": "A constraint sees the design it is asked about", "statement": "When a constraint is evaluated at a vector inside the bounds, the structural attribute of each free variable holds the requested value (within 1e-8), whatever was evaluated before.", "quantifier": "every history of calls, every vector inside the bounds, every lock pattern", "why_tests_cant": "Substitution is skipped when the stored values look equal, so the outcome depends on the history of calls, not on one call.", "anchors": ["metku/optimization/constraints.py: Constraint.__call__", "metku/optimization/variables.py: Variable.__init__, substitute"]}
{"id": "C43", "title": "Linearisation returns first-order difference models and leaves the problem as it was", "statement": "Linearising a problem at a point x returns the objective value at x, one difference quotient of the objective per variable (or the user's gradient), for every (potentially active) constraint the row of its difference quotients with a step of at least 1e-8 that is only taken upwards when it stays below the upper bound, and right-hand sides such that the linear model reproduces the constraint values at x (and is exact for affine functions); afterwards all variables, the structure and the analysis correspond to x and the caller's vector is unchanged.", "quantifier": "for all problems (any number of variables and constraints), all objective and constraint functions, all points x, all choices of only_potential and of a user gradient", "why_tests_cant": "the loop shifts one variable at a time and interleaves substitutions, objective and constraint calls; whether every shift is undone and every quotient uses the right pair of states depends on the whole sequence for arbitrary problem sizes and functions, and stale analyses only show after specific sequences", "anchors": ["metku/optimization/structopt.py:OptimizationProblem.linearize", "metku/optimization/structopt.py:OptimizationProblem.substitute_variables", "metku/optimization/constraints.py:Constraint.__call__", "metku/optimization/objective.py:ObjectiveFunction.__call__"]}
{"id": "C44", "title": "An objective that needs an analysis sees the analysis of the design it is asked about", "statement": "When the objective requires a structural analysis, evaluating it at x uses analysis results computed for x.", "quantifier": "every problem, every x, every earlier history", "why_tests_cant": "The value is only wrong by the difference between two designs; a single evaluation at the current design hides it.", "anchors": ["metku/optimization/objective.py: ObjectiveFunction.__call__"]}
{"id": "C45", "title": "The recorded starting point is the first design substituted", "statement": "The problem remembers the first vector it was given as starting point and no later substitution changes it.", "quantifier": "every sequence of substituted vectors", "why_tests_cant": "It fails only for sequences that pass through the zero vector.", "anchors": ["metku/optimization/structopt.py: OptimizationProblem.substitute_variables"]}
{"id": "C46", "title": "Multiplier update is the gradient of the augmented Lagrangian", "statement": "At any point, the sensitivity of the augmented Lagrangian to a constraint or bound equals the multiplier that the next multiplier update installs, so minimising the augmented Lagrangian and updating multipliers aims at the optimality conditions of the original problem.", "quantifier": "every constraint type, value, multiplier and penalty factor > 0", "why_tests_cant": "an inconsistent pair of formulas still converges on some problems", "anchors": ["metku/optimization/structopt.py:OptimizationProblem.augmented_lagrangian,update_lag_mult"]}
{"id": "C47", "title": "The inverse barrier overestimates inside the feasible set and grows at its edge", "statement": "At every strictly feasible point the inverse barrier function is at least the objective, and exceeds it by at least 1/(R eps) when some inequality or bound is within eps of its limit.", "quantifier": "all problems, all strictly feasible points, all barrier factors > 0, all eps > 0", "why_tests_cant": "sign errors show only for constraint types or bounds a test does not use", "anchors": ["metku/optimization/structopt.py:OptimizationProblem.barrier_fun"]}
{"id": "C48", "title": "The recorded iteration history lists the visited points", "statement": "After a run, the solver's history of iterates is the starting point followed by the visited points in order.", "quantifier": "every problem, every step rule, every number of iterations", "why_tests_cant": "sharing of arrays between history and current point shows only from the second iteration on, for particular solvers", "anchors": ["metku/optimization/solvers/optsolver.py:OptSolver.solve,OptSolver.step", "metku/optimization/solvers/slp.py:SLP.step", "metku/optimization/solvers/mma.py:MMA.step"]}
{"id": "C49", "title": "Solving leaves the caller's starting point alone", "statement": "The array given as starting point has the same content after solving as before.", "quantifier": "every problem, every step rule, every starting point", "why_tests_cant": "depends on the argument's type and on the solver's way of forming the next point", "anchors": ["metku/optimization/solvers/optsolver.py:OptSolver.solve,OptSolver.step"]}
{"id": "C50", "title": "Branch and bound terminates", "statement": "On a problem with discrete variables, a branch-and-bound search makes at most finitely many passes: however the nodes are selected, the number of passes never exceeds 3 to the power of the number of allowed values, provided the external solvers return points within the bounds they are given.", "quantifier": "every problem, every order of node selection, every bounding oracle that respects the bounds", "why_tests_cant": "non-termination shows only on particular search trees, and no finite run distinguishes a slow search from an endless one", "anchors": ["metku/optimization/solvers/bnb.py:BnB.solve", "metku/optimization/solvers/bnb.py:BnB.branch", "metku/optimization/solvers/bnb.py:BnB.select_node"]}
{"id": "C51", "title": "Swarm designs take allowed values", "statement": "Every design that the particle swarm evaluates after a move has, for each integer or discrete variable, a value that this variable allows.", "quantifier": "all problems, all random sequences, all particles and iterations", "why_tests_cant": "quantifies over all random schedules and combinations of variable types", "anchors": ["metku/optimization/solvers/pso.py:Particle.move", "metku/optimization/structopt.py:OptimizationProblem.type_of_vars"]}
{"id": "C52", "title": "The equivalent moment factor is the one of Table B.3", "statement": "For given end moments, midspan moment and load type the equivalent uniform moment factor is the value of Table B.3 of EN 1993-1-1.", "quantifier": "all end moments, midspan moments, ratios in [-1,1], both load types", "why_tests_cant": "the table has ten regions over three continuous arguments; the deviation sits on a measure-zero line (vanishing midspan moment)", "anchors": ["metku/eurocodes/en1993/en1993_1_1.py:equivalent_moment_factor"]}
{"id": "C53", "title": "Reported member forces follow beam theory and are in equilibrium with the member load", "statement": "For members without load the reported axial force, moments and shear are EA times the strain, EI times the curvature and EI times its slope of the deflection with the computed end values, with a consistent sign convention; for loaded members, with or without end releases, the reported end values of axial force, shear and moment satisfy equilibrium with the load along the member.", "quantifier": "all section data, lengths, end displacements, end releases and linearly varying loads", "why_tests_cant": "sign errors cancel in symmetric examples; equilibrium has to hold for every displacement state and release pattern", "anchors": ["metku/framefem/elements/ebbeam.py:EBBeam.internal_forces,EBBeam.equivalent_nodal_loads,EBBeam.local_stiffness_matrix", "metku/framefem/elements/rod.py:Rod.internal_forces"]}
{"id": "C54", "title": "A semi-rigid beam is a beam attached through rotational springs", "statement": "For every nodal displacement the nodal forces of the semi-rigid beam element are those of an ordinary beam whose end rotations differ from the nodal rotations by the spring rotations, the spring moments being equal to the beam's end moments; an end stiffness at the rigid limit gives a rigid connection.", "quantifier": "all positive stiffnesses, section data, lengths, displacements", "why_tests_cant": "equality of a closed-form matrix with a mechanical sub-system for a continuum of parameters", "anchors": ["metku/framefem/elements/eb_semi_rigid_beam.py:EBSemiRigidBeam.local_stiffness_matrix,matrix_S,gamma,delta"]}
{"id": "C55", "title": "Element matrices carry the exact energies", "statement": "The energy of the beam's elastic stiffness matrix is the strain energy of the cubic deflection with the given end values, and the energy of its geometric stiffness matrix is the axial force times the integral of the squared slope; both matrices are symmetric.", "quantifier": "all axial forces, lengths, orientations, displacements", "why_tests_cant": "equality of matrices with integrals over all deflections", "anchors": ["metku/framefem/elements/ebbeam.py:EBBeam.local_stiffness_matrix,EBBeam.local_geometric_stiffness_matrix,EBBeam.geometric_stiffness_matrix"]}
{"id": "C56", "title": "The stress-strain curve of steel in fire is a continuous curve of the code's shape", "statement": "At every steel temperature of the code's range the stress is defined for every strain; it starts with the reduced modulus, is continuous, does not decrease up to 15 % strain, reaches the reduced yield strength at 2 %, stays between yield and 1.25 times yield on the plateau with hardening, falls after 15 % and is zero from 20 % on.", "quantifier": "all temperatures in [20,1200], all strains, all steels with 200 fy <= E, with and without hardening", "why_tests_cant": "five branches of a continuum with square roots; continuity at the joints is an identity between formulas", "anchors": ["metku/eurocodes/en1993/en1993_1_2.py:stress,fuT,fpT,fyT,EaT"]}
{"id": "C57", "title": "Unprotected steel heats up along the heat balance and never gets hotter than the fire", "statement": "For any duration, step and gas temperature curve the heating calculation ends with equally long lists of temperatures and times, the times are multiples of the step, consecutive temperatures satisfy the heat balance of the code, and for short enough steps the steel never cools and never exceeds the gas temperature. Gas curves start at 20 degrees and rise; thermal elongation is zero at 20 degrees and grows.", "quantifier": "all durations, steps, section factors, gas temperature functions", "why_tests_cant": "it is an invariant of a loop of unbounded length over continuous data", "anchors": ["metku/eurocodes/en1993/en1993_1_2.py:steel_temp,hnet,spec_heat,standard_fire,hydrocarbon_fire,therm_elongation"]}
{"id": "C58", "title": "The discreteness measure is the distance to the nearest allowed value", "statement": "The violation reported for integer and list variables is the distance to the nearest allowed value, or zero when that distance is within the tolerance, and a value is accepted exactly when it is within the bounds and within the tolerance of an allowed value.", "quantifier": "all values, all finite lists in any order, all bounds", "why_tests_cant": "quantifies over all reals and value lists, including rounding ties", "anchors": ["metku/optimization/variables.py:IntegerVariable.discrete_violation,IntegerVariable.is_allowed_value,DiscreteVariable.discrete_violation,DiscreteVariable.is_allowed_value"]}
{"id": "C59", "title": "Iterates never leave the bounds", "statement": "Every point visited by an iterative solver lies within the bounds of the variables, and a component whose move stays inside its bounds moves by exactly the computed step.", "quantifier": "every step rule, starting point, clock and iteration limit", "why_tests_cant": "it is an invariant over all action sequences", "anchors": ["metku/optimization/solvers/optsolver.py:OptSolver.step,OptSolver.solve", "metku/optimization/solvers/mma.py:MMA.step"]}
{"id": "C60", "title": "Unlocking a variable makes it follow again", "statement": "Locking and unlocking an unlocked variable without giving a value leaves the problem unchanged; afterwards a substituted value is stored (an index variable stores its whole part), and a variable other than an index, binary or section variable that targets one attribute writes the scaled value to every targeted object.", "quantifier": "every problem, every unlocked variable, every value", "why_tests_cant": "quantifies over all problems and call sequences", "anchors": ["metku/optimization/variables.py:Variable.lock,Variable.unlock,Variable.substitute"]}
{"id": "C61", "title": "Interaction of axial force and bending follows Annex B", "statement": "For compressed members the interaction factors kyy, kyz, kzy and kzz are those of Tables B.1 and B.2 of EN 1993-1-1 for every section class, and the beam-column utilisation is the sum of Eqs. (6.61) and (6.62).", "quantifier": "all axial utilisations, slendernesses, moment factors, section classes, both susceptibilities to torsion", "why_tests_cant": "piecewise formulas on continuous ranges with limits; the deviations lie between the sample points", "anchors": ["metku/eurocodes/en1993/en1993_1_1.py:kyy,kzy,kzz,kyz,beam_column_utility"]}
{"id": "C62", "title": "Resistances keep stresses within the yield strength and buckling below the critical force", "statement": "Tension, compression, bending and shear resistances are exactly the actions that bring the section to yield (von Mises for shear); the buckling resistance exceeds neither the yield force nor the elastic critical force and grows with it; the sway imperfection lies between 1/300*sqrt(1/2) and 1/200 and does not grow with height or number of columns.", "quantifier": "all areas, moduli, strengths, critical forces, buckling curves, heights and numbers of columns", "why_tests_cant": "inequalities over continuous parameters including square roots", "anchors": ["metku/eurocodes/en1993/en1993_1_1.py:tension_resistance,compression_resistance,bending_resistance,shear_resistance,net_section_resistance,slenderness,buckling_reduction_factor,buckling_strength,sway_imperfection"]}
{"id": "C63", "title": "Shear buckling resistance is bounded, monotone and follows Table 5.1", "statement": "The shear buckling reduction factor is that of Table 5.1, lies in (0, eta] and never grows with slenderness for both end posts; the buckling coefficient is 9.34 for a square panel, above 5.34 and does not grow with the stiffener distance; the web resistance is positive, at most eta times the plastic shear force and does not grow with the stiffener distance; the flange contribution is positive while the flanges have moment capacity left and vanishes when they have none.", "quantifier": "all slendernesses, eta >= 1, both end posts, all positive web and flange dimensions, stiffener distances and moment ratios", "why_tests_cant": "monotonicity across two branch boundaries on a continuum; a jump of 0.15 percent at one slenderness is invisible to sampling", "anchors": ["metku/eurocodes/en1993/en1993_1_5.py:shear_buckling_reduction_factor,shear_buckling_coefficient,tau_crit,shear_buckling_slenderness,shear_buckling_web,shear_buckling_flanges"]}
{"id": "C64", "title": "Resistance to transverse forces is self-consistent with clause 6", "statement": "The resistance to a transverse force equals yield strength times web thickness times effective loaded length times min(0.5/lambda, 1), with the second dimensionless parameter set to 0.02 (hw/tf)^2 exactly when the final slenderness exceeds 0.5 and zero otherwise, although the slenderness itself depends on that parameter; it is positive; no stiffeners (a = 0) means a stiffener distance of 1000 web heights.", "quantifier": "all load types, all positive strengths and dimensions, bearing lengths and end distances >= 0", "why_tests_cant": "the definition is implicit (the parameter depends on a slenderness which depends on the parameter); consistency must hold on both sides of the switch for all data", "anchors": ["metku/eurocodes/en1993/en1993_1_5.py:transverse_force_resistance"]}
{"id": "C65", "title": "The section properties of hollow sections are those of the shape", "statement": "For a rectangular hollow section with EN 10219 corner radii, area, second moments and plastic moduli about both axes are the integrals over the shape with rounded corners, elastic moduli are second moments over the extreme-fibre distance, the painted area is the outline length and the torsion constant is Bredt's plus U T^3/3; the same for circular sections; elastic moduli never exceed plastic ones.", "quantifier": "all heights, widths, wall thicknesses with corners that fit; all diameters and walls up to the radius", "why_tests_cant": "it is an equality of closed formulas with integrals over continuous families of shapes; tables list rounded values for a few sizes", "anchors": ["metku/sections/steel/RHS.py:RHS.__init__,RHS_area,RHS_second_moment,RHS_elastic_modulus,RHS_plastic_modulus,RHS_torsion_modulus", "metku/sections/steel/CHS.py:CHS.__init__"]}
{"id": "C66", "title": "The section properties of rolled I-sections are those of the shape", "statement": "For a rolled I-section with root fillets, area and both plastic moduli are the integrals over the shape, the second moments are within 0.05 % (strong axis, on the safe side) and 0.25 % (weak axis) of the integrals, the elastic moduli follow from them and never exceed the plastic ones, the shear area lies between the web plate and the whole area, and the painted surface is the length of the outline.", "quantifier": "all dimensions for which fillets fit between the flanges and on the flange", "why_tests_cant": "an equality (or uniform error bound) of formulas with integrals over a five-parameter family of shapes", "anchors": ["metku/sections/steel/ISection.py:cross_section_properties,ISection.__init__"]}
{"id": "C67", "title": "The cross-section class follows the slenderness limits of EN 1993-1-1 for the forces acting", "statement": "The cross-section class of a profile under an axial force and a moment is the class of its most slender compressed part: class 1, 2, 3 is reported exactly when flange and web are within the limits of EN 1993-1-1 Table 5.2 for the stress pattern of the forces (pure compression, pure bending, both), whatever the sign of the moment and also with tension.", "quantifier": "all axial forces and moments, all dimensions of rolled I-sections and rectangular hollow sections, all steel grades from S235", "why_tests_cant": "the limits depend on the stress pattern and on continuous dimensions; tests on catalogue profiles stay away from the boundaries and from slender webs in combined compression and bending", "anchors": ["metku/sections/steel/steel_section.py:SteelSection.section_class", "metku/sections/steel/ISection.py:ISection.web_class_comp_bend,flange_class", "metku/sections/steel/RHS.py:RHS.web_class_comp_bend,flange_class,web_class_comp,web_class_bend"]}
{"id": "C68", "title": "The cross-section check accepts exactly the forces EN 1993-1-1 6.2 allows", "statement": "The utilisations returned by the check of a cross-section are at most one exactly when the axial force is within A*fy, the shear force within the plastic shear resistance, and the moment within the resistance of the cross-section class reduced for the axial force (6.2.9) and for shear (6.2.8), about either axis; the first three utilisations are force over resistance.", "quantifier": "all profiles with positive section data, all axial forces, moments and shear forces, both axes", "why_tests_cant": "an equivalence over a five-dimensional space of forces; unsafe acceptance shows only on parts of the boundary surface", "anchors": ["metku/sections/steel/steel_section.py:SteelSection.section_resistance,bending_resistance,VyRd,VzRd", "metku/sections/steel/RHS.py:RHS.moment_axial_force_interact", "metku/sections/steel/ISection.py:ISection.moment_axial_force_interact"]}
{"id": "C69", "title": "Lateral-torsional buckling resistance is bounded, ordered and solves its design equation", "statement": "The lateral-torsional buckling resistance of a member is positive, at most the bending resistance, and never lower for a larger critical moment; a design moment within it is at most the critical moment; and beyond the plateau the reduction factor is the root of the design equation of EN 1993-1-1 6.3.2 for the general method and for rolled sections; the critical moment of a doubly symmetric member loaded at the shear centre is the value of the classical formula, is positive, and falls with length and with the height of the load above the shear centre.", "quantifier": "all positive section data, lengths, factors and moments, both methods", "why_tests_cant": "inequalities and an equation over continuous data", "anchors": ["metku/structures/steel/steel_member.py:SteelMember.LT_buckling_strength,mcrit"]}
{"id": "C70", "title": "Member design does not depend on the order in which sections were added", "statement": "Two members with the same profile, length, supports and the same internal forces at the same locations get the same utilisation from design, whatever the order in which the sections were added.", "quantifier": "all lists of sections and all their permutations", "why_tests_cant": "quantifies over permutations of arbitrary lists; the hidden state left in the profile by the last checked section matters only near class limits", "anchors": ["metku/structures/steel/steel_member.py:SteelMember.design,check_sections,check_section,check_beamcolumn"]}
{"id": "C71", "title": "Larger forces never lower the utilisation of a cross-section", "statement": "If axial force, moment and shear force of a cross-section grow in magnitude, none of its utilisations becomes smaller.", "quantifier": "all profiles with positive section data, all pairs of force triples", "why_tests_cant": "monotonicity over all pairs of inputs; the jump happens at a single point of the force axis", "anchors": ["metku/sections/steel/steel_section.py:SteelSection.section_resistance", "metku/sections/steel/RHS.py:RHS.moment_axial_force_interact"]}
{"id": "C72", "title": "Ultimate limit state load combination", "statement": "For any set of permanent and variable loads with known consequence class, when the ultimate limit state combiner returns, its line loads are those of one combination of EN 1990 (permanent loads with 1.35, or permanent loads with 1.15, one leading variable load with 1.5 and the others with 1.5 psi0, all times the consequence factor), on every line id and in both directions, up to rounding of each load to two decimals; and no other combination gives a larger load.", "quantifier": "all lists of loads, values, directions, line ids and consequence classes", "why_tests_cant": "The number of combinations grows with the number of loads, and which one governs depends on all values; tests check a few load sets with one line.", "anchors": ["metku/eurocodes/en1991/en1991.py: ULSCombiner.combine, ULSCombiner.get_result, Combiner.get_single_result, Combiner.sum_Q_k_excluding"]}
{"id": "C73", "title": "Serviceability and accidental load combinations", "statement": "The characteristic, frequent and quasi-permanent results of the serviceability combiner, and the result of the accidental combiner, are the largest of the combinations (6.14), (6.15), (6.16), (6.11) of EN 1990 for the loads that were given, up to rounding of each load to two decimals.", "quantifier": "all lists of loads, values, directions and line ids", "why_tests_cant": "The combination that governs changes with the ratio of the loads; a wrong comparison shows only for particular ratios.", "anchors": ["metku/eurocodes/en1991/en1991.py: SLSCombiner.combine, SLSCombiner.get_result, ACCCombiner.combine, ACCCombiner.get_result"]}
{"id": "C74", "title": "Adding loads to a combiner and reducing imposed loads", "statement": "The loads in a combiner are exactly the loads that were added, in order, split into permanent and variable ones, area loads turned into line loads on the strip width, with the psi factors of the building class for imposed loads and of the ground value for snow. The area reduction multiplies each imposed load by a factor between 0.7 and 1 that is not below EN 1991-1-1 (6.1), leaves other loads unchanged, and applying it again for the same area changes nothing more.", "quantifier": "all sequences of added loads, all building classes, strip widths and lengths", "why_tests_cant": "Covers sequences of any length and mixture of load kinds, and repeated calls.", "anchors": ["metku/eurocodes/en1991/en1991.py: Combiner.add, Combiner.get_comb_factors, SnowLoad, Combiner.use_reduction_factor"]}
{"id": "C75", "title": "Peak velocity pressure", "statement": "For every terrain category 0 to 4 and nonzero wind velocity the peak velocity pressure is positive, does not fall with height, is constant up to the minimum height and strictly increases above it, grows with the square of the basic velocity, and equals EN 1991-1-4 (4.8); any other category raises KeyError.", "quantifier": "all heights, wind velocities and terrain categories", "why_tests_cant": "Monotonicity and the scaling law are statements about pairs of real inputs.", "anchors": ["metku/eurocodes/en1991/en1991_1_4.py: peak_velocity_pressure, turbulence_intensity, mean_wind_velocity, terrain_roughness, terrain_category"]}
{"id": "C76", "title": "Wind zones and pressures on walls", "statement": "For every rectangular building with positive sizes, the side zones A, B, C have nonnegative lengths that fill the side wall in the order of EN 1991-1-4 Figure 7.5, and the external pressures are the peak pressure times the coefficients of Table 7.1 interpolated in h/d.", "quantifier": "all building sizes, peak pressures and both wind directions", "why_tests_cant": "The zone layout has three cases and the coefficients four ranges, for real sizes.", "anchors": ["metku/eurocodes/en1991/en1991_1_4.py: rect_building_wall_pressure, interpolate, ext_pressure_walls"]}
{"id": "C77", "title": "Wind zones and pressures on flat and monopitch roofs", "statement": "For every building the zones of a flat roof have nonnegative sizes that fill the roof, and flat roofs with or without parapets and monopitch roofs get the pressures of EN 1991-1-4 clause 7.2.", "quantifier": "all building sizes, peak pressures and parapet heights", "why_tests_cant": "The layout has to be valid for all real proportions of depth, width and height.", "anchors": ["metku/eurocodes/en1991/en1991_1_4.py: flat_roof_pressure, monopitch_roof_pressure"]}
{"id": "C78", "title": "Pressure coefficients of monopitch roofs", "statement": "For every pitch angle from 5 degrees, the coefficients of the zones F, G, H are those of EN 1991-1-4 Table 7.3a, interpolated linearly between the angles of the table, for wind on the low and on the high eave.", "quantifier": "all real pitch angles of at least 5 degrees", "why_tests_cant": "Six coefficients over six ranges of a real angle.", "anchors": ["metku/eurocodes/en1991/en1991_1_4.py: ExternalPressureMonoRoof, interpolate"]}
{"id": "C79", "title": "Resistances of K gap joints between hollow sections", "statement": "For every K gap joint the resistances against chord face failure, brace failure and punching shear are those of EN 1993-1-8 Table 7.12 with the reduction for steel above S355; within the range of validity they are positive, more compression in the chord never raises the chord face resistance, tension in the chord face has no influence, and a steeper brace is never stronger.", "quantifier": "all chord and brace sections, brace angles, chord forces and moments", "why_tests_cant": "Monotonicity and positivity over all dimensions, angles and forces; tests compare a few joints of a handbook.", "anchors": ["metku/eurocodes/en1993/en1993_1_8/rhs_joints.py: RHSJoint.eval_KN, RHSJoint.eval_N, RHSJoint.strength_reduction, RHSKGapJoint.chord_face_failure, RHSKGapJoint.brace_failure, RHSKGapJoint.punching_shear"]}
{"id": "C80", "title": "Eccentricity of a gap joint", "statement": "The eccentricity returned for a gap joint is the distance from the chord axis, away from the braces, of the only point in which the axes of the two braces meet, when the brace walls leave the given gap on the chord face.", "quantifier": "all heights, gaps and angles whose sum is below 180 degrees", "why_tests_cant": "A geometric identity over all real angles and sizes.", "anchors": ["metku/eurocodes/en1993/en1993_1_8/rhs_joints.py: eccentricity, RHSKGapJoint.eccentricity"]}
{"id": "C81", "title": "Shear in the gap of a K joint", "statement": "The shear force in the gap is the vertical component of the force of the compression brace, whichever brace is listed first; the resistances of braces and chord against chord shear follow from the shear area of the gap, which lies between two webs and two webs with one flange and shrinks with the gap; a chord whose shear resistance is exceeded has no axial resistance left in the gap.", "quantifier": "all gap joints, brace forces of either sign order, gaps", "why_tests_cant": "The statement ranges over real forces, gaps and the order of the braces.", "anchors": ["metku/eurocodes/en1993/en1993_1_8/rhs_joints.py: RHSKGapJoint.V0gap, RHSKGapJoint.N1, RHSKGapJoint.chord_shear, RHSKGapJoint.a_eta"]}
{"id": "C82", "title": "Axial force in the gap of a K joint", "statement": "The axial force returned for the gap is in horizontal equilibrium with the chord force and the force of the brace on the same side, for chords in compression and in tension.", "quantifier": "all gap joints and forces", "why_tests_cant": "Equilibrium for all forces, angles and signs.", "anchors": ["metku/eurocodes/en1993/en1993_1_8/rhs_joints.py: RHSKGapJoint.N0gap, RHSKGapJoint.N2, RHSKGapJoint.angle2"]}
{"id": "C83", "title": "Design of a K gap joint", "statement": "Designing a gap joint returns the ratios of the brace forces to the smallest resistance of all failure modes that apply, so that a ratio is at most 1 exactly if the force is within every one of them; the chord face can be reinforced by a plate.", "quantifier": "all gap joints with forces", "why_tests_cant": "Equivalence over all joints and forces; that every call raises is a statement about all inputs.", "anchors": ["metku/eurocodes/en1993/en1993_1_8/rhs_joints.py: RHSKGapJoint.design, RHSKGapJoint.add_chord_face_plate"]}
{"id": "C84", "title": "Resistances of Y joints between hollow sections", "statement": "For every Y joint the resistances against chord face failure, side wall failure, brace failure and punching shear are those of EN 1993-1-8 Table 7.11, including the chord stress factor for a chord in compression.", "quantifier": "all sections, angles, chord forces and moments", "why_tests_cant": "Agreement over all real dimensions and forces; for unstressed chords and mild steel the wrong and the right formula coincide.", "anchors": ["metku/eurocodes/en1993/en1993_1_8/rhs_joints.py: RHSYJoint.chord_face_failure, RHSYJoint.chord_web_buckling, RHSYJoint.brace_failure, RHSYJoint.punching_shear"]}
{"id": "C85", "title": "Design of a Y joint", "statement": "The utilisation of a Y joint is the force over the chord face resistance up to a width ratio of 0.85, the force over the smaller of side wall and brace failure at equal widths, and in between the resistance is interpolated linearly from chord face failure at 0.85 to side wall failure at 1.", "quantifier": "all Y joints, width ratios and forces", "why_tests_cant": "Interpolation over a real interval of width ratios.", "anchors": ["metku/eurocodes/en1993/en1993_1_8/rhs_joints.py: RHSYJoint.design"]}
{"id": "C86", "title": "Side wall buckling under a compressed brace", "statement": "If the brace of a Y or X joint is in compression, the strength of the chord side walls is reduced by the buckling factor of their slenderness, never above yield; in tension it is the yield strength.", "quantifier": "all joints, brace forces and slendernesses", "why_tests_cant": "The sign of the stored force and the slenderness range over all reals.", "anchors": ["metku/eurocodes/en1993/en1993_1_8/rhs_joints.py: RHSYJoint.__init__, RHSYJoint.fb, RHSYJoint.slend, RHSXJoint.fb, RHSXJoint.chord_web_buckling", "metku/structures/steel/steel_member.py: SteelMember.NEd"]}
{"id": "C87", "title": "Lines in the plane", "statement": "The intersection of two lines is returned exactly if they are not parallel, lies on both lines at the returned parameters and is the only common point; for a line through two distinct points or with a direction of length 1 the distance of a point is the smallest distance to any point of the line, taken at the returned point of the line.", "quantifier": "all lines and points", "why_tests_cant": "Minimality over all points of the line and uniqueness are not testable.", "anchors": ["metku/eurocodes/en1993/en1993_1_8/rhs_joints.py: Line"]}
{"id": "C88", "title": "A bolt of a size, class and length", "statement": "Constructing a bolt of a size M12 to M36 and a class 4.6 to 10.9 for a grip length gives the shortest partially threaded bolt of the price list at least that long, otherwise the shortest fully threaded one, otherwise a warning and a bolt of the requested length; hole diameter, stress area, gross area and strengths are those of EN 1090-2 and EN 1993-1-8, and head, nut and washer those of ISO 4014, ISO 4032 and ISO 7089.", "quantifier": "all sizes, classes and real lengths", "why_tests_cant": "The length is a real number compared with every row of the table; minimality and the absence of other outcomes are statements about all lengths.", "anchors": ["metku/eurocodes/en1993/en1993_1_8/en1993_1_8.py: Bolt.__init__, mat_bolt", "metku/cost/cost_data.py: bolt_unit_cost_part_thread, bolt_unit_cost_full_thread"]}
{"id": "C89", "title": "Changing the size of a bolt", "statement": "Setting a new size on a bolt gives the bolt that would be constructed with the new size and the same class and requested length, and raises exactly when that construction raises, leaving the bolt unchanged.", "quantifier": "all constructed bolts, all new sizes", "why_tests_cant": "Equality of all attributes for every pair of sizes and every requested length, including the state after an exception.", "anchors": ["metku/eurocodes/en1993/en1993_1_8/en1993_1_8.py: Bolt.size (setter), Bolt.__init__"]}
{"id": "C90", "title": "Shear resistance of bolts", "statement": "The shear resistance of a bolt is that of Table 3.4 of EN 1993-1-8 for planes through threads and shank, by the method and by the function; a plane through the threads is never stronger than one through the shank.", "quantifier": "all bolts, classes, areas and strengths", "why_tests_cant": "The inequality and the formula are claimed for all bolts that can be constructed and both positions of the shear plane.", "anchors": ["metku/eurocodes/en1993/en1993_1_8/en1993_1_8.py: Bolt.shear_resistance, bolt_shear_resistance"]}
{"id": "C91", "title": "Bearing resistance of bolts", "statement": "The bearing resistance is that of Table 3.4 of EN 1993-1-8 for edge and inner bolts along and across the load; with the spacings of Table 3.3 it is positive, bounded, and does not decrease with distances and thickness; the function and the method agree.", "quantifier": "all bolts, distances, thicknesses, strengths and positions", "why_tests_cant": "Minimum of several expressions of real arguments; monotonicity relates all pairs of inputs.", "anchors": ["metku/eurocodes/en1993/en1993_1_8/en1993_1_8.py: Bolt.bearing_resistance, bolt_bearing_resistance"]}
{"id": "C92", "title": "Bolts in shear and tension", "statement": "The utilisation of a bolt in shear and tension is at most 1 exactly when the bolt is safe by Table 3.4 (shear, tension and their interaction).", "quantifier": "all positive resistances and all forces with tension not negative", "why_tests_cant": "An equivalence over all pairs of forces and resistances.", "anchors": ["metku/eurocodes/en1993/en1993_1_8/en1993_1_8.py: shear_and_tension_resistance"]}
{"id": "C93", "title": "Tension, punching and block tearing", "statement": "Tension and punching resistances are those of Table 3.4 and block tearing is that of 3.10.2; an eccentric load never gives more than a concentric one.", "quantifier": "all bolts, plates, strengths and net areas", "why_tests_cant": "Formulas and an inequality over all real inputs.", "anchors": ["metku/eurocodes/en1993/en1993_1_8/en1993_1_8.py: Bolt.tension_resistance, bolt_tension_resistance, bolt_punching_shear_resistance, block_tearing"]}
{"id": "C94", "title": "Stiffness of a joint at a moment", "statement": "The ratio of initial to actual stiffness is 1 up to two thirds of the moment resistance, then the power law of EN 1993-1-8 6.3.1(6); it is continuous there, never below 1, and never decreases with the moment.", "quantifier": "all moment ratios, all exponents not negative", "why_tests_cant": "Monotonicity and the bound hold for all real ratios and exponents.", "anchors": ["metku/eurocodes/en1993/en1993_1_8/en1993_1_8.py: stiffness_ratio"]}
{"id": "C95", "title": "Full-strength fillet welds", "statement": "For every steel grade of the library the full-strength throat is the least one with which the directional method of EN 1993-1-8 4.5.3.2 accepts a plate (two welds) or a tube wall (one weld) at yield.", "quantifier": "all grades, strengths, thicknesses and throats", "why_tests_cant": "Leastness is a statement about all throats; the stresses of the directional method are solved for.", "anchors": ["metku/eurocodes/en1993/en1993_1_8/en1993_1_8.py: full_strength_weld_throat, full_strength_weld_tube"]}
{"id": "C96", "title": "Interaction of web compression with shear", "statement": "The reduction factor for the interaction with shear in the column web is that of Table 6.3 for all transformation parameters from 0 to 2; it lies between 0 and 1 and does not increase with the parameter.", "quantifier": "all transformation parameters, widths, thicknesses and shear areas", "why_tests_cant": "A piecewise function of a real parameter compared at all pairs of parameters.", "anchors": ["metku/eurocodes/en1993/en1993_1_8/component_method.py: min_coeff_w"]}
{"id": "C97", "title": "Column web in transverse tension and compression", "statement": "The resistances of a column web in transverse tension and compression are those of EN 1993-1-8 6.2.6.2 and 6.2.6.3 for all transformation parameters from 0 to 2: they never exceed the effective width at yield and do not grow with the stress in the column or with the transformation parameter.", "quantifier": "all sections, effective lengths, transformation parameters and stresses", "why_tests_cant": "Bounds and monotonicity over all pairs of real parameters of piecewise functions with square roots.", "anchors": ["metku/eurocodes/en1993/en1993_1_8/component_method.py: col_web_trv_comp, column_web_tension"]}
{"id": "C98", "title": "T-stubs and bolt rows agree with plastic limit analysis", "statement": "A force is within the tension resistance of a T-stub exactly if there is a prying force with which neither bolts nor flange are loaded beyond their strength; a force is within the resistance of a bolt row or of a group of rows exactly if all components carry it.", "quantifier": "all dimensions, strengths, bolts and forces", "why_tests_cant": "The specification is an existence statement about prying forces that the code never computes.", "anchors": ["metku/eurocodes/en1993/en1993_1_8/en1993_1_8.py: TStub, TStubColumnFlange, TStubEndPlate, BoltRow.tension_resistance, BoltRowGroup.tension_resistance"]}
{"id": "C99", "title": "Effective lengths of groups of rows", "statement": "For a group of any number of rows away from stiffeners the effective lengths are those of a single row lengthened by the distance between the outer rows (twice that for the circular pattern), whatever the spacings inside the group.", "quantifier": "all groups with any number of rows and any spacings", "why_tests_cant": "An induction over the number of rows.", "anchors": ["metku/eurocodes/en1993/en1993_1_8/en1993_1_8.py: TStubGroupColumnFlange, TStubGroupEndPlate, BoltRowGroup.p"]}
{"id": "C100", "title": "The row forces of an end-plate joint are admissible", "statement": "Whenever the moment resistance of an end-plate joint is returned, each tension row carries at most its own resistance, each group at most the resistance of the group, and all tension rows together at most what the compression side and web panel carry.", "quantifier": "all joints with any number of rows and groups in any order, overlapping or not", "why_tests_cant": "The groups may overlap and each later reduction must preserve all earlier bounds.", "anchors": ["metku/structures/steel/end_plate_joint.py: EndPlateJoint.bending_resistance"]}
{"id": "C101", "title": "The moment resistance is the largest of all admissible distributions", "statement": "No distribution of row forces that respects the resistances of rows, groups and compression side gives a larger moment than the one returned.", "quantifier": "all joints and all distributions of forces", "why_tests_cant": "Optimality against all real vectors of row forces.", "anchors": ["metku/structures/steel/end_plate_joint.py: EndPlateJoint.bending_resistance"]}
{"id": "C102", "title": "Only rows in tension contribute to the moment", "statement": "The moment resistance of an end-plate joint is the sum of the forces of its rows in tension times their distances from the compressed flange; shear rows do not contribute.", "quantifier": "all joints with any number of rows of either kind", "why_tests_cant": "Holds for lists of rows of any length; the error of one newton per row is lost in the tolerance of a test.", "anchors": ["metku/structures/steel/end_plate_joint.py: EndPlateJoint.bending_resistance", "metku/eurocodes/en1993/en1993_1_8/en1993_1_8.py: BoltRow"]}
{"id": "C103", "title": "The moment resistance exists with and without stiffeners", "statement": "The moment resistance of an end-plate joint is returned for every joint with rows at the positions of the tables, with or without stiffeners of the column web.", "quantifier": "all joints, rows and stiffeners", "why_tests_cant": "Whether some joint with stiffeners can be evaluated is a statement about all of them.", "anchors": ["metku/structures/steel/end_plate_joint.py: EndPlateJoint.bending_resistance, EndPlateJoint.Fc_wc_Rd", "metku/eurocodes/en1993/en1993_1_8/en1993_1_8.py: BoltRow.tension_resistance"]}
{"id": "C104", "title": "Effective lengths follow the dimensions", "statement": "The effective length of a T-stub is that of the governing failure mode for its current dimensions, strengths and bolts.", "quantifier": "all T-stubs and all changes of them", "why_tests_cant": "Concerns all histories of evaluations and changes, not one evaluation.", "anchors": ["metku/eurocodes/en1993/en1993_1_8/en1993_1_8.py: TStub.leff, TStub.FT_Rd"]}
{"id": "C105", "title": "Initial stiffness is that of the springs of the joint", "statement": "For any rows in tension the initial rotational stiffness is that of the mechanical model: rows as springs in parallel with the rotation, each a series of web, flange, plate and bolt springs, in series with the column web in shear and compression; shear rows do not contribute.", "quantifier": "all numbers of rows, stiffness factors, lever arms, rotations and moments", "why_tests_cant": "The mechanical model is a system of equations in unknown deformations for any number of rows.", "anchors": ["metku/structures/steel/end_plate_joint.py: EndPlateJoint.Sj_ini, EndPlateJoint.zeq_and_keq, EndPlateJoint.keq", "metku/eurocodes/en1993/en1993_1_8/en1993_1_8.py: BoltRow.keff"]}
{"id": "C106", "title": "Shear resistance of end-plate joints is safe for every bolt", "statement": "The shear resistance of an end-plate joint is a sum of forces of its bolts each of which is safe in shear together with its tension and in bearing against end plate and column flange.", "quantifier": "all joints, rows, tensions and plate thicknesses", "why_tests_cant": "Safety of every bolt for all tensions up to the resistance; the margin violated is 0.03 percent.", "anchors": ["metku/structures/steel/end_plate_joint.py: EndPlateJoint.shear_resistance"]}
{"id": "C107", "title": "Column web panel with stiffeners", "statement": "With stiffeners at both flanges of the beam the shear resistance of the column web panel is that of EN 1993-1-8 (6.7) and (6.8).", "quantifier": "all sections and stiffeners", "why_tests_cant": "The bound that is wrong governs only for some sections; all of them are compared.", "anchors": ["metku/structures/steel/end_plate_joint.py: EndPlateJoint.V_wp_Rd"]}
{"id": "C108", "title": "The order of the groups does not matter", "statement": "Row forces and moment resistance of an end-plate joint do not depend on the order in which groups of rows are listed.", "quantifier": "all joints and all permutations of the groups", "why_tests_cant": "All permutations of lists of any length.", "anchors": ["metku/structures/steel/end_plate_joint.py: EndPlateJoint.bending_resistance"]}
{"id": "C109", "title": "Every height given to an end-plate joint gets a bolt row", "statement": "The constructor of an end-plate joint makes one bolt row for every height, with the given positions and types; this includes the default row types.", "quantifier": "all lists of heights, positions and types", "why_tests_cant": "Lists of any length and all combinations of lengths.", "anchors": ["metku/structures/steel/end_plate_joint.py: EndPlateJoint.__init__"]}
{"id": "C110", "title": "Bolt group of a fin plate in shear", "statement": "The shear resistance of the bolts of a fin plate joint is the largest shear force for which no bolt exceeds its shear resistance, when force and moment of the eccentricity are distributed elastically over the bolts.", "quantifier": "all joints with any number of rows and columns of bolts, distances, classes and sizes of bolts, all shear forces", "why_tests_cant": "Equivalence with a check of every bolt for any number of bolts and any force; a test compares one computed number with one expected number.", "anchors": ["metku/structures/steel/fin_plate_joint.py FinPlateJoint.bolt_shear", "metku/structures/steel/fin_plate_joint.py FinPlateJoint.I", "metku/structures/steel/fin_plate_joint.py FinPlateJoint.z"]}
{"id": "C111", "title": "Bearing in fin plate and beam web", "statement": "The bearing resistances of the fin plate and of the beam web are the largest shear force for which every bolt satisfies the quadratic interaction of its vertical and horizontal force with the bearing resistances of its position, with distances to the edges of the part in question.", "quantifier": "all joints, distances to edges and between bolts, thicknesses and strengths, all shear forces", "why_tests_cant": "Quantifies over every bolt of groups of any size and over all forces and geometries.", "anchors": ["metku/structures/steel/fin_plate_joint.py FinPlateJoint.fin_plate_bearing", "metku/structures/steel/fin_plate_joint.py FinPlateJoint.beam_web_bearing"]}
{"id": "C112", "title": "Shear of fin plate and beam web", "statement": "The gross and net shear resistances of the fin plate and the net shear resistance of the beam web are reached exactly when the shear stress in the section reaches its limit, with the holes of one column taken off in net sections.", "quantifier": "all joints with positive net sections and all shear forces", "why_tests_cant": "An equivalence for all forces and dimensions.", "anchors": ["metku/structures/steel/fin_plate_joint.py FinPlateJoint.fin_plate_shear_gross", "metku/structures/steel/fin_plate_joint.py FinPlateJoint.fin_plate_shear_net", "metku/structures/steel/fin_plate_joint.py FinPlateJoint.beam_web_shear_net"]}
{"id": "C113", "title": "Bending of a fin plate", "statement": "The bending resistance of a fin plate is the force at the middle of the bolt group that brings its edge to yield; if the plate is at least 2.73 times as deep as the lever arm, bending does not govern over gross shear, as the printed message says, and with 2.72 times it does.", "quantifier": "all plates and lever arms, all shear forces", "why_tests_cant": "The threshold is an inequality between two resistances over all dimensions and strengths.", "anchors": ["metku/structures/steel/fin_plate_joint.py FinPlateJoint.fin_plate_bending", "metku/structures/steel/fin_plate_joint.py FinPlateJoint.fin_plate_shear_gross"]}
{"id": "C114", "title": "Lateral-torsional buckling of a fin plate", "statement": "The resistance of a fin plate to lateral-torsional buckling never exceeds its bending resistance, equals it for short lever arms, and is otherwise reduced by the factor of buckling curve d divided by 0.6.", "quantifier": "all plates, lever arms and steels", "why_tests_cant": "An upper bound and a characterisation of the reduction for all slendernesses.", "anchors": ["metku/structures/steel/fin_plate_joint.py FinPlateJoint.fin_plate_ltb", "metku/eurocodes/en1993/en1993_1_1.py buckling_reduction_factor"]}
{"id": "C115", "title": "Block tearing of fin plate and beam web", "statement": "The resistances to block tearing are those of EN 1993-1-8 3.10.2 for the block bounded by the bolts: the path in tension runs across all columns to the side, the path in shear along all rows to the edge, less the holes.", "quantifier": "all numbers of rows and columns of bolts and all distances", "why_tests_cant": "Lengths of paths for any number of columns; examples have one or two.", "anchors": ["metku/structures/steel/fin_plate_joint.py FinPlateJoint.fin_plate_block_tearing", "metku/structures/steel/fin_plate_joint.py FinPlateJoint.beam_web_block_tearing"]}
{"id": "C116", "title": "Check of the distances of holes of a fin plate", "statement": "The check accepts a pattern of holes exactly if all distances to edges of the plate and of the beam and all distances between holes are at least those of EN 1993-1-8 Table 3.3.", "quantifier": "all patterns of holes in all plates and beams", "why_tests_cant": "Both directions over all geometries.", "anchors": ["metku/structures/steel/fin_plate_joint.py FinPlateJoint.check_bolt_position"]}
{"id": "C117", "title": "Reading a distance does not move holes", "statement": "Reading the vertical edge distance of a fin plate joint leaves the plate unchanged; with vertical symmetry the distances to the upper and lower edge are equal.", "quantifier": "all joints", "why_tests_cant": "A frame condition on state over all objects and over repeated reads.", "anchors": ["metku/structures/steel/fin_plate_joint.py FinPlateJoint.e1", "metku/structures/steel/plates.py RectPlateWithHoles.eTop"]}
{"id": "C118", "title": "Bounds and move limits of sequential linear programming", "statement": "Every iteration of SLP and MISLP leaves all variables within their bounds and changes a variable at most by the move limits times its range, or times the size of its value if the limits are relative.", "quantifier": "all problems, linearisations, correct LP and MILP solvers, states of the solver and iterations", "why_tests_cant": "A run visits a few points; the claim is about every point, sign of the variables and every answer a correct LP solver may give.", "anchors": ["metku/optimization/solvers/slp.py SLP.take_action, SLP.step", "metku/optimization/solvers/mislp.py MISLP.take_action, MISLP.step"]}
{"id": "C119", "title": "Total travel of sequential linear programming", "statement": "The move limits shrink by the factor 1 - gamma in every iteration, so that with limits relative to the range no variable ever gets further from the start than the first move limit times its range divided by gamma.", "quantifier": "all problems, correct LP solvers, numbers of iterations and gamma in (0, 1]", "why_tests_cant": "A bound on runs of every length, by induction over the iterations.", "anchors": ["metku/optimization/solvers/slp.py SLP.take_action", "metku/optimization/solvers/mislp.py MISLP.take_action"]}
{"id": "C120", "title": "Relaxation keeps the linear problems solvable", "statement": "With the relaxation variable beta included, an iteration of SLP finds a solution of the linear problem also if the current design violates the linearised constraints.", "quantifier": "all problems, correct LP solvers and states of the solver", "why_tests_cant": "Infeasible linear problems appear only after certain histories of the bound of beta.", "anchors": ["metku/optimization/solvers/slp.py SLP.take_action"]}
{"id": "C121", "title": "Linearised constraints hold in the sense of their type", "statement": "The design found by an iteration of SLP or MISLP satisfies every constraint, linearised at the previous design, in the sense of its type (at most, at least, equal), up to the relaxation.", "quantifier": "all problems, correct LP and MILP solvers, states of the solver and types of constraints", "why_tests_cant": "Covers all linear problems; test problems use one type of constraint.", "anchors": ["metku/optimization/solvers/slp.py SLP.take_action", "metku/optimization/solvers/mislp.py MISLP.take_action"]}
{"id": "C122", "title": "MISLP gives discrete variables allowed values", "statement": "Whenever MISLP changes the design, every discrete variable gets one of its allowed values.", "quantifier": "all problems with discrete variables, lists of values, correct MILP solvers and states of the solver", "why_tests_cant": "Depends on the decimals of the values and on the mixture of classes of variables.", "anchors": ["metku/optimization/solvers/mislp.py MISLP.take_action, MISLP.step"]}
{"id": "C123", "title": "MISLP can reach neighbouring values", "statement": "For a discrete variable at one of its values the move limits of MISLP always admit that value and the next smaller and larger ones.", "quantifier": "all lists of values, move limits and positions in the list", "why_tests_cant": "All lists, spacings and limits, including the ends of the list.", "anchors": ["metku/optimization/solvers/mislp.py MISLP.take_action"]}
{"id": "C124", "title": "Predicted objective does not increase", "statement": "From a design that satisfies the linearised constraints, an iteration of SLP does not increase the linearised objective.", "quantifier": "all problems, correct LP solvers and states of the solver", "why_tests_cant": "Optimality over all feasible points of all linear problems.", "anchors": ["metku/optimization/solvers/slp.py SLP.take_action"]}
{"id": "C125", "title": "Result of the discrete neighbourhood search", "statement": "The discrete neighbourhood search returns the pair of objective and design; the design is feasible and not worse than a feasible start, and the search ends when it has no better neighbour.", "quantifier": "all problems with index variables, starts, numbers of iterations, sequences of random actions and answers of the clock", "why_tests_cant": "Random runs show single sequences of actions; the claim is about all of them and about termination.", "anchors": ["metku/optimization/solvers/vns.py DiscreteVNS.step, DiscreteVNS.solve"]}
{"id": "C126", "title": "Every variable of the discrete neighbourhood search has its own bounds", "statement": "The discrete neighbourhood search keeps the index of every variable within the list of that variable and does not raise.", "quantifier": "all lists of values, designs and random actions", "why_tests_cant": "Test problems use the same list for all members.", "anchors": ["metku/optimization/solvers/vns.py DiscreteVNS.step", "metku/optimization/variables.py IndexVariable.substitute"]}
{"id": "C127", "title": "Neighbourhood search leaves the bounds of the variables alone", "statement": "After every action of the neighbourhood search the variables of the problem have the bounds they had before.", "quantifier": "all problems, inner solvers, states of the search", "why_tests_cant": "The bounds differ only after certain sequences of unsuccessful inner searches.", "anchors": ["metku/optimization/solvers/vns.py VNS.take_action"]}
{"id": "C128", "title": "Neighbourhood search uses improvements", "statement": "If the inner solver finds a better design than the best known one, the search moves to it; it moves to no other design.", "quantifier": "all problems, inner solvers and states of the search", "why_tests_cant": "Depends on coincidences between coordinates of designs.", "anchors": ["metku/optimization/solvers/vns.py VNS.take_action"]}
{"id": "C129", "title": "Values of the second phase", "statement": "The second phase of the two-phase solver can choose the allowed value nearest to the solution of the first phase and the given number of values around it, and only allowed values.", "quantifier": "all lists of values, limits and solutions of the first phase", "why_tests_cant": "All lists, limits and positions in the list, including its ends.", "anchors": ["metku/optimization/solvers/two_phase.py TwoPhase.discretize"]}
{"id": "C130", "title": "Result of the genetic algorithm", "statement": "The genetic algorithm returns the best design it has evaluated for the problem, within the bounds, together with its fitness.", "quantifier": "all problems, operators and sequences of evaluated individuals", "why_tests_cant": "Covers every sequence random operators may produce, all bounds and every history of the object.", "anchors": ["metku/optimization/solvers/ga.py GA.eval_individual, GA.solve"]}
{"id": "C131", "title": "Starting point of the genetic algorithm", "statement": "With a starting point, every individual of the initial population (before mutation) gives every variable its value in the starting point.", "quantifier": "all starting points, sizes of the population and earlier runs in the process", "why_tests_cant": "Depends on earlier runs in the same process.", "anchors": ["metku/optimization/solvers/ga.py GA.attribute_generator, GA.register"]}
{"id": "C132", "title": "New population of the genetic algorithm", "statement": "The new population contains the best design found so far and is larger than the population size given.", "quantifier": "all sizes, selected individuals and random numbers", "why_tests_cant": "All sizes and random numbers.", "anchors": ["metku/optimization/solvers/ga.py GA.new_population"]}
{"id": "C133", "title": "The best individual survives a generation", "statement": "Crossover and mutation leave the best individual found so far in the population.", "quantifier": "all operators, sizes and random decisions", "why_tests_cant": "Universal over operators and random decisions; depends on aliasing between lists.", "anchors": ["metku/optimization/solvers/ga.py GA.solve, GA.new_population, GA.eval_individual"]}
{"id": "C134", "title": "Pheromone of the ant colony", "statement": "In every iteration the pheromone of a value is multiplied by xi for every ant that chose it and increased by the best ants according to their rank; no iteration raises, and every value keeps a positive probability.", "quantifier": "all numbers of members, values and ants, all choices of ants and numbers of iterations", "why_tests_cant": "An invariant of runs of every length over all random choices.", "anchors": ["metku/optimization/solvers/aco.py AntColonyOptimizer.local_pheromone_update, AntColonyOptimizer.global_pheromone_update, AntColonyOptimizer.update_probabilities"]}
{"id": "C135", "title": "Result of the ant colony", "statement": "The ant colony returns the best design of all ants of the iterations carried out for the problem, with its fitness.", "quantifier": "all problems, choices of ants, numbers of iterations and histories of the object", "why_tests_cant": "Minimum over all evaluations of runs of every length.", "anchors": ["metku/optimization/solvers/aco.py AntColonyOptimizer.evaluate, AntColonyOptimizer.solve"]}
{"id": "C136", "title": "Charring depth over time", "statement": "The notional charring depth of a side of a timber section is zero at the start of a fire and never decreases with the duration of the fire, for bare sides and for every protection a section accepts.", "quantifier": "all notional rates, protections, materials and pairs of times", "why_tests_cant": "Monotonicity over a continuous time axis with regimes whose boundaries depend on the protection; a jump at a single instant is not met by sampled times.", "anchors": ["metku/eurocodes/en1995/en1995_1_2.py d_char_n", "metku/eurocodes/en1995/fire_protection.py FireProtection"]}
{"id": "C137", "title": "Fire protection never makes charring worse", "statement": "Nothing is lost before a protection lets charring start, and at no time is a protected side charred deeper than the same side without protection.", "quantifier": "all protections, materials and times", "why_tests_cant": "A comparison of two piecewise functions over all times and all failure times.", "anchors": ["metku/eurocodes/en1995/en1995_1_2.py d_char_n", "metku/eurocodes/en1995/fire_protection.py FireProtection, GypsumPlasterboardA, GypsumPlasterboardH, GypsumPlasterboardF"]}
{"id": "C138", "title": "Residual section in fire", "statement": "A timber section has its full size without fire; under a fire of any duration its sizes are positive, not above the full ones and do not grow with time, and area, second moments and section moduli are those of the residual rectangle, whenever the protections were given.", "quantifier": "all sizes, materials, protections of the sides and durations", "why_tests_cant": "Sections with every combination of protections and all durations; protections given later behave differently.", "anchors": ["metku/sections/timber/timber_section.py TimberSection.H, TimberSection.B, TimberSection.A, TimberSection.I, TimberSection.Wel, TimberSection.fire_protection_generic"]}
{"id": "C139", "title": "Charring rates", "statement": "Every grade has the charring rates of table 3.1 of EN 1995-1-2 for its kind, hardness and density, and a section takes over those of its grade.", "quantifier": "all densities, kinds, hardnesses and thicknesses", "why_tests_cant": "The table is a case distinction over continuous densities with gaps between the tabulated classes.", "anchors": ["metku/eurocodes/en1995/en1995_1_2.py charring_speed", "metku/materials/timber_data.py Timber"]}
{"id": "C140", "title": "Depth of tapered beams", "statement": "The depth of a tapered beam at its ends and its apex is the one it was given, and between these points it is linear: single tapers from end to end, double tapers and pitched cambered beams with a tent whose top is the apex, whether or not the apex is the deepest point.", "quantifier": "all depths, angles, apex positions and locations along the beam", "why_tests_cant": "A continuum of shapes and locations; the formula uses a maximum that silently picks the wrong line when the apex is shallower than the ends.", "anchors": ["metku/sections/timber/timber_section.py PulpettiPalkki.get_unmodified_h, HarjaPalkki.get_unmodified_h, MahaPalkki.get_unmodified_h"]}
{"id": "C141", "title": "Small elements follow their beam", "statement": "After a size of a tapered beam is set, any number of times, the small elements used in the analysis and the properties of the beam itself are those of a beam made with the new size.", "quantifier": "all tapered beams, all sequences of depths and widths set", "why_tests_cant": "Arbitrary sequences of setters; stale state shows only after particular ones.", "anchors": ["metku/sections/timber/timber_section.py TaperedSection.create_elements, TaperedSection.update_elements, PulpettiPalkki.H0, HarjaPalkki.H0, MahaPalkki.H0, TimberSection.B"]}
{"id": "C142", "title": "Volume of tapered beams", "statement": "The small elements of a tapered beam have together the total volume reported for the member, whatever their number and the duration of a fire.", "quantifier": "all straight tapers, numbers of small elements, charred depths and lengths", "why_tests_cant": "Exactness for every number of elements needs a summation argument; tests check a few numbers with a tolerance.", "anchors": ["metku/structures/timber/timber_member.py TimberMember.V_tot", "metku/sections/timber/timber_section.py TaperedSection.create_elements, TaperedSection.get_A"]}
{"id": "C143", "title": "Depth of curved beams", "statement": "The depth of a curved or pitched curved beam is the distance of its two faces, straight lines of the given angles that are rounded by the given radius in the middle; it is symmetric and has the given depth at both ends.", "quantifier": "all depths, angles, radii and lengths, all locations along the beam", "why_tests_cant": "The code is a case distinction with up to six branches per shape over continuous locations; which branches overlap depends on the angles.", "anchors": ["metku/sections/timber/timber_section.py KaarevaPalkki.get_unmodified_h, KaarevaHarjaPalkki.get_unmodified_h"]}
{"id": "C144", "title": "Design strengths of timber", "statement": "Members of sawn timber, glulam and LVL can be made for the three service classes and the five load duration classes and for no others; a shorter load duration never lowers a design strength, service class 3 never raises one, and strengths without size factor are positive and stay below the characteristic ones.", "quantifier": "all grades, service classes, load durations, sizes, lengths and internal forces", "why_tests_cant": "Comparisons between all pairs of classes for all grades and forces.", "anchors": ["metku/eurocodes/en1995/en1995_1_1.py kmod, k_to_d, get_gammaM", "metku/structures/timber/timber_member.py TimberMember.fmd, TimberMember.ft0d, TimberMember.ft90d, TimberMember.fc0d, TimberMember.fc90d, TimberMember.fvd"]}
{"id": "C145", "title": "Size effect of timber", "statement": "The size factor lies between 1 and 1.3 for sawn timber, between 1 and 1.1 for glulam and below 1.2 for LVL; it never grows with the depth, is 1 from the reference depth on, and axial compression does not raise the bending strength.", "quantifier": "all widths, depths, densities and internal forces", "why_tests_cant": "Monotonicity over a continuum of sizes, with branches on the forces of the member.", "anchors": ["metku/sections/timber/timber_section.py TimberSection.k_h", "metku/structures/timber/timber_member.py TimberMember.fmd, TimberMember.NEd"]}
{"id": "C146", "title": "Section checks of timber members", "statement": "A section of a timber member passes the check of the axial force exactly when the force does not exceed area times strength, and the shear check exactly when the shear forces do not exceed two thirds of the effective area times strength; biaxial bending, alone and together with tension or compression, is rated at the worst corner whatever the signs of the moments.", "quantifier": "all residual sizes, strengths and internal forces of either sign", "why_tests_cant": "Four sign combinations of the moments over a continuum of forces; a sign slip shows only for combinations that usual load cases do not produce.", "anchors": ["metku/structures/timber/timber_member.py TimberMember.check_normal_force, TimberMember.check_shear_force, TimberMember.check_bending_moment, TimberMember.check_bending_tension, TimberMember.check_bending_compression, TimberMember.sigma_md, TimberMember.tau_d"]}
{"id": "C147", "title": "The design result of a timber member covers every section and check", "statement": "The design result of a member is not below the utilisation of any section in any check, whatever the signs of the forces, nor below buckling, lateral buckling and compression across the grain; a member reported strong enough passes every check.", "quantifier": "all members, lists of sections with their forces, and results of the stability checks", "why_tests_cant": "Maximum over lists of any length with forces of any sign; a dropped check shows only where this check governs.", "anchors": ["metku/structures/timber/timber_member.py TimberMember.check_sections, TimberMember.design, TimberMember.check_torsion, TimberMember.check_cross_section"]}
{"id": "C148", "title": "Torsion of rectangles", "statement": "The torsion stress of a rectangle is not below that of a thin rectangle and its torsion constant not above it; neither depends on which side is called the depth.", "quantifier": "all sizes and torsion moments", "why_tests_cant": "The table of factors covers ten small intervals of the ratio of sides; the interpolation between them is a continuum.", "anchors": ["metku/structures/timber/timber_member.py TimberMember.tau_tord, TimberMember.I_tor"]}
{"id": "C149", "title": "Shear reduction near supports", "statement": "A zone at each end of a beam reaches over the depth of the beam there and half the depth of the member it meets. The shear check of a section outside the zones uses the force of this section. In a zone it uses the section of the zone farthest from the support if the beam has a section behind the zone, and the section itself otherwise. Without reduction, and for members that are no beams, every section is checked itself.", "quantifier": "all beams with sections in order and end zones that do not overlap, all sections", "why_tests_cant": "The search moves through a list of sections of any length with indices that wrap around at the start.", "anchors": ["metku/structures/timber/timber_member.py TimberMember.check_shear_force"]}
{"id": "C150", "title": "Every force of the analysis reaches the member", "statement": "After the analysis a member has one section per node, in order and at the location of the node, and the forces at both ends of each of its elements are among the forces of its sections.", "quantifier": "all members, numbers of elements and element forces", "why_tests_cant": "Forces jump only at point loads and inner supports; all other load cases agree.", "anchors": ["metku/frame2d/frame2d.py FrameMember.assign_forces"]}
{"id": "C151", "title": "Buckling reduction of timber struts", "statement": "The reduction of the compressive strength of a slender timber strut solves the equation of Ayrton and Perry with the imperfection of its material, is never above one nor above the Euler stress, and falls strictly with the slenderness.", "quantifier": "all materials and all relative slendernesses", "why_tests_cant": "The bound and the monotonicity range over a continuum of slendernesses; a table of samples does not exclude a root of a negative number or a rise between the samples.", "anchors": ["metku/structures/timber/timber_member.py TimberMember.k", "metku/structures/timber/timber_member.py TimberMember.k_c", "metku/structures/timber/timber_member.py TimberMember.beta_c"]}
{"id": "C152", "title": "Lateral buckling reduction of timber beams", "statement": "The reduction of the bending strength for lateral buckling is that of EN 1995-1-1 (6.34), lies between zero and one, rates no stress above the critical stress, and falls with the slenderness.", "quantifier": "all slendernesses, strengths and critical stresses", "why_tests_cant": "The reduction is defined in three pieces; that it never rises has to hold across and within all of them.", "anchors": ["metku/structures/timber/timber_member.py TimberMember.k_crit", "metku/structures/timber/timber_member.py TimberMember.lamda_relm", "metku/structures/timber/timber_member.py TimberMember.sigma_mcrit"]}
{"id": "C153", "title": "Segments between lateral supports", "statement": "The lateral supports of a timber member divide it into one segment more than there are supports, in order from its start to its end; the lengths are not negative and add up to the length of the member, in whatever order the supports are given. Generating the frame again leaves the segments as they are.", "quantifier": "all lengths and all lists of supports between start and end", "why_tests_cant": "The lists have any length and order, and the segments depend on sorting and on how often the frame is generated.", "anchors": ["metku/structures/timber/timber_member.py TimberMember.calc_l_c", "metku/structures/timber/timber_member.py TimberMember.add_neighbours_support"]}
{"id": "C154", "title": "Buckling lengths of timber members", "statement": "Every segment of a timber member has a buckling length between 0.7 and 2.2 times its length according to its type and supports. Asking again gives the same lengths, a member seen from its other end has the same lengths, and they follow when the supports of the member change.", "quantifier": "all member types, end supports, stiffnesses of joints and segments", "why_tests_cant": "The factors come from case distinctions over all combinations of supports and are kept from call to call; a test visits a few combinations in one order.", "anchors": ["metku/structures/timber/timber_member.py TimberMember.Ln"]}
{"id": "C155", "title": "Buckling check covers every section", "statement": "The buckling check of a timber member is at least the interaction of axial force and bending about both axes for every section in compression, with the reduction of each segment the section belongs to, whatever the signs of the moments. Each result is zero or combines stresses of one segment in compression, and a member without compression has the results zero.", "quantifier": "all members, supports, reductions and internal forces", "why_tests_cant": "The statement compares the result with every section of every segment for arbitrary signs of three internal forces.", "anchors": ["metku/structures/timber/timber_member.py TimberMember.check_buckling", "metku/structures/timber/timber_member.py TimberMember.get_max_sigma_per_segment"]}
{"id": "C156", "title": "Lateral buckling check covers every section", "statement": "The lateral buckling check of a timber member is at least the ratio of moment and reduced bending strength of every section in every segment without axial force, and at least the square of that ratio together with the axial part otherwise, whatever the sign of the moment. One section attains the result.", "quantifier": "all members, supports, lengths of segments, reductions and internal forces", "why_tests_cant": "The statement compares the result with every section of every segment; the sign of the moment decides whether a section can govern at all.", "anchors": ["metku/structures/timber/timber_member.py TimberMember.check_LT_buckling", "metku/structures/timber/timber_member.py TimberMember.k_crit", "metku/structures/timber/timber_member.py TimberMember.l_ef"]}
{"id": "C157", "title": "Bracing of timber beams", "statement": "Bracing is designed for the largest force of the compressed edge that lateral buckling does not leave to the beam. The force of a brace is a fiftieth of it for solid timber and an eightieth otherwise, the stiffness of a brace is that force times the factor of the standard over the distance of braces, and the load of the bracing system is reduced only for spans above 15 m.", "quantifier": "all beams, braces, numbers of frames and internal forces", "why_tests_cant": "The governing force is a maximum over all sections and segments; the units of the span and the factor of the stiffness show only against an independent formula for all spans and numbers of braces.", "anchors": ["metku/structures/timber/timber_member.py TimberMember.bracing"]}
{"id": "C158", "title": "Slenderness used by the buckling check of timber members", "statement": "The buckling check of a timber member uses one reduction per segment and axis, which solves the equation of struts for the buckling length of the segment and for the width of the member or its depth at the section of the segment with the largest bending stress.", "quantifier": "all members, supports, buckling lengths, materials and internal forces", "why_tests_cant": "The reduction depends on which of any number of sections of a segment is chosen, for arbitrary signs of the moments.", "anchors": ["metku/structures/timber/timber_member.py TimberMember.radius_of_gyration", "metku/structures/timber/timber_member.py TimberMember.lamda", "metku/structures/timber/timber_member.py TimberMember.lamda_rel", "metku/structures/timber/timber_member.py TimberMember.k_c"]}
{"id": "C159", "title": "The factors for the apex of tapered and curved timber beams are those of EN 1995-1-1", "statement": "For double tapered, pitched and curved beams the factors of bending and of tension across the grain at the apex equal the formulas of the standard in the slope and the ratio of depth and radius, and bent laminations are reduced by their radius over thickness. (The code satisfies this except for the bending factor of curved beams with a ridge, where a term is lost, and except for the reduction of bent laminations, where the radius is multiplied by a thousand.)", "quantifier": "for all sections with positive radius of the middle line, all slopes and lengths", "why_tests_cant": "The formulas differ by a term that vanishes for one slope and is small otherwise; every test of the reduction with realistic radii returns 1.", "anchors": ["metku/structures/timber/timber_member.py:TimberMember.k_p", "metku/structures/timber/timber_member.py:TimberMember.k_l", "metku/structures/timber/timber_member.py:TimberMember.k_r", "metku/structures/timber/timber_member.py:TimberMember.alfa"]}
{"id": "C160", "title": "The moment at the apex of a timber beam is that of the section there, or interpolated between its neighbours", "statement": "The moment used in the checks of the apex is the moment of the section at the apex; without one it is the value at the apex on the straight line between the neighbouring sections. The checks of bending and of tension across the grain are this moment over the section modulus there, times the factors of the apex, over the strengths. (The code takes the mean of the neighbours, whatever their distances.)", "quantifier": "for all members with distinct locations of sections, and all places of the apex between the first and the last section", "why_tests_cant": "Tests place a node at the apex or in the middle of two nodes, where the mean is right.", "anchors": ["metku/structures/timber/timber_member.py:TimberMember.M_apd", "metku/structures/timber/timber_member.py:TimberMember.W_ap", "metku/structures/timber/timber_member.py:TimberMember.check_apex_bending_stress", "metku/structures/timber/timber_member.py:TimberMember.check_apex_perpendicular_tension", "metku/structures/timber/timber_member.py:TimberMember.check_tapered_beam_bending_tension"]}
{"id": "C161", "title": "The tapered edge of a timber beam is checked for its largest bending stress with the strength of EN 1995-1-1", "statement": "The check of the tapered edge uses the bending stress of the largest size along the member, reduces the bending strength by a factor between 0 and 1, which is that of the standard for tension or for compression at the edge, and its utilisation bounds the bending utilisation of every section. (The code uses the compressive strength across the grain for both, and keeps the sign of the stress, so that hogging moments never fail.)", "quantifier": "for all members with sound sections and strengths, all forces and slopes", "why_tests_cant": "The sign and the governing section depend on the whole moment diagram; the wrong strength changes the factor slightly for usual slopes.", "anchors": ["metku/structures/timber/timber_member.py:TimberMember.sigma_m_alpha_d", "metku/structures/timber/timber_member.py:TimberMember.k_m_alpha", "metku/structures/timber/timber_member.py:TimberMember.check_single_tapered_beam_bending_tension"]}
{"id": "C162", "title": "Tensile strength across the grain at the apex follows volume and shape of the beam", "statement": "The volume factor is the fifth root of 0.01 m3 over the volume at the apex (at most two thirds of the beam), falls with the volume, and is 1 for solid timber; the distribution factor is 1.4 for double tapered and curved beams and 1.7 for pitched cambered beams. (In the code solid timber is never recognised, and curved beams get 1.7.)", "quantifier": "for all positive volumes, all kinds of timber and sections", "why_tests_cant": "Fifth roots over a continuum of volumes; the comparison with a text that no material has cannot be seen from results for glued timber.", "anchors": ["metku/structures/timber/timber_member.py:TimberMember.k_vol", "metku/structures/timber/timber_member.py:TimberMember.k_dis"]}
{"id": "C163", "title": "Shear together with tension across the grain at the apex counts the shear at both ends", "statement": "The utilisation is that of tension across the grain plus that of shear, with the larger of the shear stresses at the edges of the zones next to the supports. (The code compares signed stresses, so that the negative shear force at the end never counts, and does not reduce at the end.)", "quantifier": "for all members with increasing locations of sections, all forces, loads and apex sections", "why_tests_cant": "With symmetric loads the start governs and the result is right; asymmetric loads in every proportion are needed.", "anchors": ["metku/structures/timber/timber_member.py:TimberMember.check_apex_shear_perpendicular_tension_combined"]}
{"id": "C164", "title": "Load on the compressed edge reduces the tension across the grain at the apex", "statement": "A uniform load pressing on the compressed edge reduces the tension across the grain by 0.6 times its size over the width, several loads by their sum, others not at all. (In the code the sign of a load pointing downwards enlarges the tension, and of several loads only the last one counts.)", "quantifier": "for all members, apex sections and lists of loads", "why_tests_cant": "Needs all lists of loads of any length and order.", "anchors": ["metku/structures/timber/timber_member.py:TimberMember.sigma_t90d"]}
{"id": "C165", "title": "Compression across the grain bounds the pressure of every member that meets a timber member", "statement": "The utilisation of compression across the grain is zero when no other member presses on the member, and otherwise at least the pressure of every pressing member over its contact area (the contact length plus 30 mm on either side, at most up to the end) over the strength times the factor for the distance of supports. (In the code ends are never recognised, the force of other members is taken at their last section, members joined at a single node are not checked at all or with the factor of an earlier check, and solid timber gets the factor 2.5 instead of 1.5.)", "quantifier": "for all lists of nodes and other members with their forces, sizes and positions, and all earlier states of the member", "why_tests_cant": "Needs all numbers of nodes and members, and histories of checks; single examples with columns below a beam give plausible values.", "anchors": ["metku/structures/timber/timber_member.py:TimberMember.sigma_c90d", "metku/structures/timber/timber_member.py:TimberMember.update_kc90", "metku/structures/timber/timber_member.py:TimberMember.check_perpendicular_compression"]}
{"id": "C166", "title": "The volume of the apex zone of a curved timber beam is that of its curved part", "statement": "The volume that enters the volume factor of a curved beam is the volume of the ring between the tangent points of its lower face. (The code uses half the mean of the angles of both faces, half of the curved part when they are equal.)", "quantifier": "for all radii, depths, widths and angles", "why_tests_cant": "The volume enters by its fifth root, so that examples are off by 15 % only.", "anchors": ["metku/structures/timber/timber_member.py:TimberMember.V", "metku/sections/timber/timber_section.py:KaarevaPalkki.update_circles"]}
{"id": "C167", "title": "The intersection of two members is the common point of their lines", "statement": "The intersection of two members is none exactly when they are parallel; otherwise it is the unique common point of the two lines, within half a unit of the fifth decimal and exact when the point has at most five decimals; it does not depend on which member is asked.", "quantifier": "for all pairs of members with arbitrary end points", "why_tests_cant": "Ranges over all pairs of lines, including nearly parallel ones; a test settles single pairs.", "anchors": ["metku/frame2d/frame2d.py:FrameMember.line_intersection"]}
{"id": "C168", "title": "A point is found on a member exactly when it lies on it", "statement": "Asking a member whether a point lies on it never raises, says yes for every point of the member and, when it says yes, the point is within 1e-8 of a point of the member, in both coordinates.", "quantifier": "for all members with different ends of at most three decimals and all points", "why_tests_cant": "The claim is about all points of the plane and all slopes, in particular steep members where the roles of the coordinates change.", "anchors": ["metku/frame2d/frame2d.py:FrameMember.point_intersection"]}
{"id": "C169", "title": "The generated FEM model consists of one chain of elements per member", "statement": "However members, supports and loads were added, after `generate` no two FEM nodes are at the same place, every node belongs to a member, and every member is carried from its start to its end by a chain of elements: consecutive elements share a node, nodes are different, the chain never turns back and stays within half a thousandth of the member, and every additional point of the member has a node. (In the code a bar with an inner node gets one element that stops at the inner node.)", "quantifier": "for all sequences of added members, supports and loads, all numbers of elements", "why_tests_cant": "Needs all orders and numbers of items, all rounding ties and coincidences of points; a test shows one frame.", "anchors": ["metku/frame2d/frame2d.py:Frame2D.generate", "metku/frame2d/frame2d.py:Frame2D.add", "metku/frame2d/frame2d.py:FrameMember.generate_elements", "metku/frame2d/frame2d.py:FrameMember.calc_nodal_coordinates", "metku/frame2d/frame2d.py:FrameMember.add_nodes"]}
{"id": "C170", "title": "Members that meet are connected in the FEM model", "statement": "Two members that share an end or cross each other have a common FEM node at that point, whatever was added in whatever order. (Holds when the point has at most five decimals; otherwise the rounded intersection may be off a member by more than the tolerance and the members stay unconnected.)", "quantifier": "for all sequences of added items and all pairs of members", "why_tests_cant": "Quantifies over the order in which items are added and over all geometries; the failure needs intersections with more than five decimals.", "anchors": ["metku/frame2d/frame2d.py:Frame2D.add_member", "metku/frame2d/frame2d.py:FrameMember.add_node_coord", "metku/frame2d/frame2d.py:FrameMember.line_intersection"]}
{"id": "C171", "title": "A support on a member restrains its node there, and nothing else is restrained", "statement": "A support that lies on a member restrains the FEM node of the member at that place in exactly its directions, and every restraint of the FEM model comes from an added support. (Holds for supports with at most three decimals that are added after their member; a support added before its member, or needing more decimals, is lost without notice.)", "quantifier": "for all sequences of added items", "why_tests_cant": "The order of adding matters; tests add members first.", "anchors": ["metku/frame2d/frame2d.py:Frame2D.add_support", "metku/frame2d/frame2d.py:Support.add_support", "metku/frame2d/frame2d.py:Frame2D.generate"]}
{"id": "C172", "title": "Every point load reaches the FEM model once, at its place", "statement": "The FEM model gets exactly one nodal load for each point load that lies on a member, with its load case, vector and factor, at a node in its place. (Holds for points with at most three decimals on a member added earlier; otherwise the load is dropped and an empty load case remains.)", "quantifier": "for all sequences of added items whose load names do not end in a digit", "why_tests_cant": "Needs all sequences of loads and all coordinates; dropped loads do not raise.", "anchors": ["metku/frame2d/frame2d.py:Frame2D.add_pointload", "metku/frame2d/frame2d.py:PointLoad.add_load", "metku/frame2d/frame2d.py:Frame2D.generate"]}
{"id": "C173", "title": "Line loads have their intensity at every element of the member", "statement": "For every line load the FEM model gets one entry for each element of its member, whose intensities at the ends of the element are those of the line load at these places, times its factor. (Holds for uniform loads or elements of equal length, with factor one: a ramp goes up by the same step at every node, wherever it is, and the factor is ignored.)", "quantifier": "for all sequences of added items whose load names do not end in a digit, all intensities", "why_tests_cant": "Needs all divisions of a member into elements; tests use uniform loads.", "anchors": ["metku/frame2d/frame2d.py:LineLoad.add_load", "metku/frame2d/frame2d.py:Frame2D.add_lineload", "metku/frame2d/frame2d.py:Frame2D.generate"]}
{"id": "C174", "title": "No load replaces another one, and load cases are known once", "statement": "Every load that was added is kept by the frame, with self weight a downward load of ten times its weight per length for every member, and frame and FEM model know each load case exactly once: those of the loads added and, with self weight, that of the weights. (Holds when names do not end in a digit; a load named like a generated name is replaced.)", "quantifier": "for all sequences of added items and all names", "why_tests_cant": "Collisions of names depend on the number of loads added before.", "anchors": ["metku/frame2d/frame2d.py:Frame2D.add_lineload", "metku/frame2d/frame2d.py:Frame2D.add_pointload", "metku/frame2d/frame2d.py:Frame2D.add_self_weight"]}
{"id": "C175", "title": "A frame can be put together in any order and generated", "statement": "Adding members with different ends, supports, point loads anywhere and line loads on members of the frame in any order does not raise, nor does `generate`. (In the code a tapered member with an additional node raises IndexError.)", "quantifier": "for all sequences of items", "why_tests_cant": "Universal over sequences and geometries; a test runs one script.", "anchors": ["metku/frame2d/frame2d.py:Frame2D.add", "metku/frame2d/frame2d.py:Frame2D.generate", "metku/frame2d/frame2d.py:FrameMember.generate_elements"]}
{"id": "C176", "title": "Updating the geometry of an unchanged frame moves nothing", "statement": "`update_model` on a frame in which nothing has changed leaves every FEM node where it is. (Holds when the points of each member are different and have at most three decimals. Members that meet at their ends know these ends twice: then nodes are moved to wrong places, in a plain portal frame the corner from 6000 down to 3000.)", "quantifier": "for all generated frames", "why_tests_cant": "Tests compare results after a change; the claim is an invariant over all frames.", "anchors": ["metku/frame2d/frame2d.py:Frame2D.update_model", "metku/frame2d/frame2d.py:FrameMember.calc_nodal_coordinates"]}
{"id": "C177", "title": "Generating a frame a second time changes nothing", "statement": "A second call of `generate` leaves nodes, elements and loads of the FEM model as they are. (Nodes and elements stay when the points of each member are different and have at most three decimals; every line load is put on the frame a second time.)", "quantifier": "for all frames that were generated once", "why_tests_cant": "Tests generate once; doubled loads do not raise.", "anchors": ["metku/frame2d/frame2d.py:Frame2D.generate", "metku/frame2d/frame2d.py:LineLoad.add_load"]}
{"id": "C178", "title": "A regular frame has the columns and beams of its grid", "statement": "`Frame2D(simple=[storeys, bays, height, length], supports=...)` with positive lengths does not raise and can be generated; its members are exactly the columns of the grid, line by line and storey by storey, followed by the beams of every bay and storey (none without `create_beams`), vertical ones being columns and horizontal ones beams; `L` is the number of bays times their length and `H` the number of storeys times their height.", "quantifier": "for all positive numbers of storeys, all numbers of bays, all positive heights and lengths of at most three decimals, all numbers of elements and texts for the supports", "why_tests_cant": "The loops carry running coordinates and are reset by a comparison; the claim is about all numbers of storeys and bays.", "anchors": ["metku/frame2d/frame2d.py:Frame2D.generate_columns", "metku/frame2d/frame2d.py:Frame2D.generate_beams", "metku/frame2d/frame2d.py:Frame2D.generate_members", "metku/frame2d/frame2d.py:Frame2D.L", "metku/frame2d/frame2d.py:Frame2D.H"]}
{"id": "C179", "title": "Steel beams and columns take their type from the slope alone", "statement": "A steel member made as a beam and one made as a column with the same ends have the same type: column exactly when it rises at least 0.8 of its horizontal length, vertical ones included, whichever end comes first.", "quantifier": "for all end points", "why_tests_cant": "The two classes decide with different code; equality for all slopes including the limit cannot be sampled.", "anchors": ["metku/frame2d/frame2d.py:SteelBeam.check_mtype", "metku/frame2d/frame2d.py:SteelColumn.check_mtype"]}
{"id": "C180", "title": "The feet of a regular frame, and nothing else, are supported as asked", "statement": "For each of the support types FIXED, XHINGED, YHINGED and XYHINGED (in any case of letters), after `generate` the FEM node at the foot of every column line of a regular frame is restrained in exactly the directions of the type, and no other node is restrained.", "quantifier": "for all positive numbers of storeys, all numbers of bays, all positive heights and lengths of at most three decimals", "why_tests_cant": "Depends on which points the frame knows at ground level after all intersections were found, for every size of grid.", "anchors": ["metku/frame2d/frame2d.py:Frame2D.generate_supports", "metku/frame2d/frame2d.py:Frame2D.generate", "metku/frame2d/frame2d.py:FixedSupport"]}
{"id": "C181", "title": "Springs and hinges at the ends of members reach the FEM model, inner connections are rigid", "statement": "After `generate`, the elements of a member are rigidly connected with each other, and the ends of the member are connected to their nodes with the rotational stiffnesses `Sj1` and `Sj2` and the hinges of the member. (In the code stiffnesses count in beams only, hinges only in members that are neither beam, column nor bar; a hinge at the second end of a member of one element takes away that at the first, and a tapered beam of one element loses `Sj1`.)", "quantifier": "for all sequences of added items and every member", "why_tests_cant": "Needs all numbers of nodes of a member, which depend on everything added later; missing hinges do not raise.", "anchors": ["metku/frame2d/frame2d.py:FrameMember.generate_elements", "metku/framefem/framefem.py:FrameFEM.add_release"]}
{"id": "C182", "title": "A load combination contains exactly the factored loads of its load cases", "statement": "After a load combination is added to a frame, the loads that act under its id are exactly the loads of its load cases, each once and in their order, and each multiplied by its partial factor (1.5 variable, 1.15 permanent in the ultimate limit state, 1 otherwise), by its combination factor (0.7 live, 0.7 snow, 0.6 wind) if its load case does not lead, and by the load's own factor; the loads of every other id are unchanged.", "quantifier": "for all frames, all load cases with any number of loads of any type, all combination types and leading load cases", "why_tests_cant": "A test combines a few loads; the claim is about every number of loads, load cases and combinations, including name clashes and loads with a factor of their own.", "anchors": ["metku/raami/frame_loads.py:LoadCombination.combine_loads", "metku/raami/frame_loads.py:LoadCase.combine", "metku/raami/frame_loads.py:Load.factored", "metku/raami/raami.py:Raami.add_loadcombination"]}
{"id": "C183", "title": "Combining the loads again changes nothing", "statement": "Calling combine_loads of a load combination once more leaves the same loads in every load case of the frame: no load is doubled, lost or changed, in this combination or in any other.", "quantifier": "for all frames, combinations and states of the frame between the two calls", "why_tests_cant": "Tests recombine a single combination; what goes wrong depends on which other combinations were added in between and how many loads the frame has.", "anchors": ["metku/raami/frame_loads.py:LoadCombination.combine_loads", "metku/raami/frame_loads.py:LoadCombination.clear_loads", "metku/raami/raami.py:Raami.add_lineload"]}
{"id": "C184", "title": "The first load case with variable actions leads a combination", "statement": "In a load combination the leading load case is the first one that contains a variable action (live, wind, snow); all other variable actions are reduced by their combination factors, and if there is a variable action one of them is not reduced.", "quantifier": "for all lists of load cases with any loads", "why_tests_cant": "A test lists load cases in the usual way, each with loads of one type; the claim covers empty and mixed load cases in any order.", "anchors": ["metku/raami/frame_loads.py:LoadCombination.__init__", "metku/raami/frame_loads.py:LoadCase.load_type"]}
{"id": "C185", "title": "Adding a load case to a frame adds all its loads", "statement": "After a load case is added to a frame, each of its loads acts in that load case in the frame, once and in order, and the loads of other load cases are unchanged.", "quantifier": "for all frames and all load cases with any number of loads of any names", "why_tests_cant": "Tests name each load; loads left with their default names, in one load case or in several, are the cases that matter.", "anchors": ["metku/raami/raami.py:Raami.add_loadcase", "metku/raami/frame_loads.py:LoadCase"]}
{"id": "C186", "title": "Every load of a frame has its load case, whatever is added in whatever order", "statement": "Adding loads, load cases and combinations of existing load cases to a frame never fails; every load in the frame has an id that is listed in the frame, every listed id has a load case with that id, and every id is listed once.", "quantifier": "for all finite programs of additions to a new frame, all loads, names and ids", "why_tests_cant": "It is an invariant over all sequences of calls; tests run a few of them.", "anchors": ["metku/raami/raami.py:Raami.add_pointload", "metku/raami/raami.py:Raami.add_lineload", "metku/raami/raami.py:Raami.add_loadcase", "metku/raami/frame_loads.py:LoadCase.add"]}
{"id": "C187", "title": "Self weight acts once on every member", "statement": "After adding self weight to a frame, however often, each member has one uniform downward load equal to its weight per length in the load case of self weight, and no other load case changes.", "quantifier": "for all frames with any number of members, all weights, and any number of calls", "why_tests_cant": "Tests call it once on a small frame; the claim covers repeated calls, as in an optimization loop, for any frame.", "anchors": ["metku/raami/raami.py:Raami.add_self_weight", "metku/raami/raami.py:Raami.remove_self_weight", "metku/raami/frame_member.py:FrameMember.add_self_weight", "metku/raami/frame_member.py:FrameMember.remove_self_weight"]}
{"id": "C188", "title": "The FEM model of a Raami frame is that of the frame as it is now", "statement": "generate_fem of a plane frame gives one FEM node at every node of the frame; every member becomes a chain of `nel` elements (beams, or rods for bars and braces) from its first to its second node through nodes at equal distances on the line between its ends, which belong to no other member; there are no other nodes and elements; and the restraints are those of the supports. This holds whatever was done before (also after an earlier FEM model or moved nodes), and generating again changes nothing.", "quantifier": "for all sequences of adding nodes, members, supports and hinges, moving nodes and generating, and all coordinates, numbers of elements and types", "why_tests_cant": "Tests look at one frame generated once; the claim covers every frame and leftovers of earlier models.", "anchors": ["metku/raami/raami.py:Raami.generate_fem", "metku/raami/raami.py:Raami.clear_fem", "metku/raami/frame_member.py:FrameMember.generate_elements", "metku/raami/frame_member.py:FrameMember.calc_nodal_coordinates", "metku/raami/frame_node.py:FrameNode"]}
{"id": "C189", "title": "A moved node moves in the FEM model too", "statement": "After setting x or y of a node, the node is there, and the FEM model is the one generate_fem would make for the moved frame. (Holds if the coordinates of the node were given as floats and its members are steel members of one element. Otherwise the inner FEM nodes of its members stay behind; integer coordinates are cut off in the frame but not in the FEM model; and plain frame members give an AttributeError.)", "quantifier": "for all reachable frames with a FEM model, all nodes and all new values", "why_tests_cant": "Shape optimization moves nodes to arbitrary values many times; tests move one node of one frame.", "anchors": ["metku/raami/frame_node.py:FrameNode.x", "metku/raami/frame_node.py:FrameNode.y", "metku/raami/frame_member.py:FrameMember.recalculate_coordinates"]}
{"id": "C190", "title": "Hinges are where they were put", "statement": "A hinge added to an end of a member releases the rotation of that end in the FEM model, and no other end of any member. (Holds for members with their own list of hinges, and with two elements or a hinge at one end. A member of one element with two hinges keeps only the second one, and members made without the argument `hinges` share their hinges.)", "quantifier": "for all reachable frames, all members, both ends", "why_tests_cant": "The shared list shows only when several members are made and one of them is changed later.", "anchors": ["metku/raami/frame_member.py:FrameMember.add_hinge", "metku/raami/frame_member.py:FrameMember.generate_elements", "metku/raami/frame_member.py:FrameMember.__init__"]}
{"id": "C191", "title": "A line load on a member is the same load on its elements", "statement": "A trapezoidal line load loads every element of the member once; its values at the nodes are those of the given load times the factor, so it is continuous and has the given values at the ends, and its resultant is that of the given load.", "quantifier": "for all values, factors, lengths and numbers of elements", "why_tests_cant": "Equality of the loads for every number of elements and all values.", "anchors": ["metku/raami/frame_loads.py:LineLoad.add_load"]}
{"id": "C192", "title": "A piecewise constant load has its first value before the step and its second value after it", "statement": "Elements of a member before the local coordinate of the step have the first value times the factor, elements after it the second one, and an element across the step has the value of larger magnitude. (Holds for members from left to right. On a member from right to left the values are exchanged, and a column has the first value everywhere.)", "quantifier": "for all members, numbers of elements, steps, values and factors", "why_tests_cant": "The direction of a member depends on the order of its nodes, which differs between generators.", "anchors": ["metku/raami/frame_loads.py:PWLineLoad.add_load", "metku/raami/frame_member.py:FrameMember.local_to_global"]}
{"id": "C193", "title": "The design of a member finds the first profile that suits", "statement": "After `optimum_design` of a steel member it and its symmetry pair have the first profile of the catalogue that keeps the limits of width, section class and slenderness and with which neither is overloaded in any load case, with the utilizations of this profile; no other member changes, and the result tells whether area or second moment of area changed. (Holds if there is such a profile. If there is none, the last profile of the catalogue stays and the result is the same as if it suited.)", "quantifier": "for all catalogues, limits, forces, load cases and symmetry pairs", "why_tests_cant": "Depends on the whole catalogue, all load cases and the pair; tests look at single profiles.", "anchors": ["metku/raami/frame_member.py:SteelFrameMember.optimum_design", "metku/raami/frame_member.py:SteelFrameMember.design", "metku/raami/frame_member.py:FrameMember.cross_section"]}
{"id": "C194", "title": "The design of a group finds the first profile that suits all of its members", "statement": "After `optimum_design` of a group all of its members have the first profile of the catalogue that keeps the limits of width, section class and slenderness and with which none of them is overloaded, with the utilizations of this profile; other members do not change. (Holds without the limit of slenderness, which has no effect, and for members without symmetry pairs, which get the section without being designed.)", "quantifier": "for all catalogues, limits, forces, load cases and groups", "why_tests_cant": "Depends on the whole catalogue, all load cases and all members of the group.", "anchors": ["metku/raami/frame_member.py:MemberGroup.optimum_design", "metku/raami/frame_member.py:MemberGroup.design"]}
{"id": "C195", "title": "After optimize_members no member is overloaded with its section", "statement": "After `optimize_members` the forces that a frame shows are those of an analysis with the final sections, and the section of each member suits it for these forces. (Holds without groups and symmetry, if the search ended since no section changed, and for members that some profile suits. Changes in groups are not noticed, so that the forces may be those of the old sections; the search also ends after nine iterations, and a member that no profile suits is passed over in silence.)", "quantifier": "for all frames, analyses, catalogues and load cases", "why_tests_cant": "The forces change with the sections; the result depends on the order of members and on every iteration.", "anchors": ["metku/raami/raami.py:Raami.optimize_members", "metku/raami/raami.py:Raami.structural_analysis", "metku/raami/frame_member.py:SteelFrameMember.is_section"]}
{"id": "C196", "title": "Extreme forces of a member are extreme, and go with the forces at the same place", "statement": "An entry of `get_max_forces` holds the forces at one node in the load case that it names, and its value is the smallest (largest) of all nodes and load cases. (The latter holds if the smallest value of every load case is not positive, or the largest is not negative: load cases are compared by absolute values, so that `min N` of 5 and 10 is 10.)", "quantifier": "for all numbers of load cases and nodes and all forces", "why_tests_cant": "Signs of forces in several load cases would all have to be tried.", "anchors": ["metku/raami/frame_member.py:FrameMember.get_max_forces"]}
{"id": "C197", "title": "The design value of a force is its largest one in absolute value", "statement": "The design value of a force of a member in a load case is one of the values at the ends of its elements, none of which is larger in absolute value; of two equally large ones it is the negative one. The forces are listed at one more node than there are elements, each where its element has it.", "quantifier": "for all numbers of elements and all forces that agree at common nodes of elements", "why_tests_cant": "Only the first nodes of elements are read, so that the order of elements matters, for every number of elements.", "anchors": ["metku/raami/frame_member.py:FrameMember.calc_nodal_forces"]}
{"id": "C198", "title": "Local coordinates of a member and its displacements in order", "statement": "The local coordinate of the point of a member at a local coordinate is this coordinate, the point divides the member in this ratio, and the displacements of a member are those of its FEM nodes from its first end to the second one, in whatever order the member has the nodes.", "quantifier": "for all members of positive length, all local coordinates and all orders of nodes", "why_tests_cant": "Needs all orders of nodes and directions of members.", "anchors": ["metku/raami/frame_member.py:FrameMember.local_to_global", "metku/raami/frame_member.py:FrameMember.global_to_local", "metku/raami/frame_member.py:FrameMember.calc_nodal_displacements"]}
{"id": "C199", "title": "Symmetry pairs of members are mirror images of each other", "statement": "After `symmetry` with the vertical axis, the symmetry pair of a member is the other member that is its mirror image, and a member without one has none; pairs are mutual. (Holds for nodes apart from each other, at most one member between two nodes, and frames all nodes of which have a mirror image. Members from two symmetric nodes to a common node off the axis are paired too, and with two members between the same nodes pairs are not mutual.)", "quantifier": "for all plane frames of single-span members and all axes", "why_tests_cant": "Depends on the order of all nodes and members.", "anchors": ["metku/raami/raami.py:Raami.symmetry"]}
{"id": "C200", "title": "Section properties of a welded I-section are those of its three plates", "statement": "The area, the height of the centroid, both second moments of area, both elastic section moduli, the plastic neutral axis and both plastic section moduli reported by a welded I-section equal the corresponding integrals over the plane figure made of its two flanges and its web; the elastic moduli are the second moments divided by the distance to the most distant point.", "quantifier": "for all heights, flange widths, flange thicknesses and web thicknesses that are positive with a web not thicker than the wider flange is wide, with equal or unequal flanges, wherever the plastic neutral axis lies", "why_tests_cant": "A test compares a few catalogue sections with equal flanges; the formulas branch on where the plastic neutral axis lies and must be right for every combination of five dimensions.", "anchors": ["metku/sections/steel/wi.py:WISection.area", "metku/sections/steel/wi.py:WISection.second_moment", "metku/sections/steel/wi.py:WISection.section_modulus", "metku/sections/steel/wi.py:WISection.plastic_section_modulus", "metku/sections/steel/wi.py:WISection.elastic_neutral_axis", "metku/sections/steel/wi.py:WISection.plastic_neutral_axis"]}
{"id": "C201", "title": "Moment resistances of a welded I-section are ordered and reach the yield strength", "statement": "The moment resistance of a welded I-section is the same for classes 1 and 2, is positive for class 3 and not larger there; under the resistance of class 3 no fibre of the section is stressed above the yield strength and some fibre is stressed exactly to it, about either axis.", "quantifier": "for all welded I-sections with positive dimensions and a web not thicker than the wider flange is wide, and all yield strengths", "why_tests_cant": "It compares two resistances and bounds the stress at every point of every section.", "anchors": ["metku/sections/steel/wi.py:WISection.bending_resistance", "metku/sections/steel/wi.py:WISection.section_modulus", "metku/sections/steel/wi.py:WISection.plastic_section_modulus"]}
{"id": "C202", "title": "The painted area of a welded I-section is its circumference", "statement": "The area to be painted per unit length of a welded I-section is the length of the outline of the section.", "quantifier": "for all welded I-sections whose web is not thicker than the flanges are wide", "why_tests_cant": "A wrong or missing term is seen only if the expected value was computed independently; the claim is for all dimensions.", "anchors": ["metku/sections/steel/wi.py:WISection.paint_area"]}
{"id": "C203", "title": "Turning a welded I-section upside down does not change it", "statement": "The section with its flanges exchanged has the same area, second moments of area, section moduli, torsion and warping constants and painted area, its neutral axes and its shear centre are the mirror images, and the asymmetry factor of the section changes sign.", "quantifier": "for all welded I-sections", "why_tests_cant": "It relates two sections for every choice of dimensions; each alone may look plausible.", "anchors": ["metku/sections/steel/wi.py:WISection.warping_constant", "metku/sections/steel/wi.py:WISection.shear_centre", "metku/sections/steel/wi.py:WISection.wagners_factor", "metku/sections/steel/wi.py:WISection.second_moment"]}
{"id": "C204", "title": "Editing the dimensions of a welded I-section is the same as creating a new section", "statement": "After any sequence of assignments to the height, web height, widths, thicknesses and weld size, a welded I-section reads back the values assigned last and has the section properties and buckling curves of a new section with its current dimensions.", "quantifier": "for all sections and all finite sequences of assignments", "why_tests_cant": "Optimization assigns dimensions thousands of times in any order; the claim is an invariant over all such histories.", "anchors": ["metku/sections/steel/wi.py:WISection.__setattr__", "metku/sections/steel/wi.py:WISection.__getattribute__", "metku/sections/steel/wi.py:WISection.__init__"]}
{"id": "C205", "title": "The effective area of a welded I-section follows EN 1993-1-5", "statement": "The effective area is the area less the non-effective parts of the flanges and of the web given by the reduction factors of EN 1993-1-5, it is positive and not larger than the area, and asking for it does not change what it will be when asked again.", "quantifier": "for all welded I-sections, all yield strengths, in compression and in bending, and any number of calls", "why_tests_cant": "The result depends on what was asked before through values stored in the section; a test asks once.", "anchors": ["metku/sections/steel/wi.py:WISection.effective_area", "metku/sections/steel/wi.py:WISection.Aeff", "metku/sections/steel/wi.py:WISection.effective_web", "metku/sections/steel/wi.py:WISection.effective_flange", "metku/sections/steel/wi.py:WISection.effective_neutral_axis"]}
{"id": "C206", "title": "A welded I-section without slender parts is fully effective", "statement": "If no plate is more slender than the limit of EN 1993-1-5 below which its reduction factor is one, then the effective area, the effective second moment of area, the effective section modulus and the resistance of class 4 are those of the whole section.", "quantifier": "for all welded I-sections with such plates, with equal or unequal flanges", "why_tests_cant": "The effective values are the result of an iteration; the claim is that every such section is a fixed point of it.", "anchors": ["metku/sections/steel/wi.py:WISection.effective_second_moment_area_y", "metku/sections/steel/wi.py:WISection.W_eff_y", "metku/sections/steel/wi.py:WISection.bending_resistance", "metku/sections/steel/wi.py:WISection.effective_area"]}
{"id": "C207", "title": "The moment resistance of a welded I-section reduced for the axial force", "statement": "The reduced moment resistance lies between zero and the moment resistance, does not grow with the axial force, equals the moment resistance without axial force and vanishes at the axial resistance, and is the value MRd (1 - n) / (1 - a / 2), at most MRd, of EN 1993-1-1, 6.2.9.1 with the share a of the web in the area, at most one half.", "quantifier": "for all welded I-sections, all axial forces and all moment resistances", "why_tests_cant": "Monotonicity and bounds are statements about pairs of loads and about all sections.", "anchors": ["metku/sections/steel/wi.py:WISection.moment_axial_force_interact"]}
{"id": "C208", "title": "The class of a welded I-section is that of its worst compressed plate", "statement": "The section class is the largest class of the plates in compression under the given forces, with the limits of table 5.2 of EN 1993-1-1 for the slenderness of each plate; a section in tension has class 1.", "quantifier": "for all welded I-sections, yield strengths, axial forces and moments", "why_tests_cant": "Classification is a piecewise function of many dimensions and of the forces; errors show only in narrow ranges or for combinations nobody tests.", "anchors": ["metku/sections/steel/wi.py:WISection.flange_class", "metku/sections/steel/wi.py:WISection.web_class_comp", "metku/sections/steel/wi.py:WISection.web_class_bend", "metku/sections/steel/wi.py:WISection.web_class_comp_bend", "metku/sections/steel/steel_section.py:SteelSection.section_class"]}
{"id": "C209", "title": "The check of a welded I-section compares forces with resistances about both axes", "statement": "The check of the cross-section returns ratios that are at most one exactly when the axial force, the shear force and the moment do not exceed A fy, Av fy / sqrt 3 and W fy, and the combined ratio is not smaller than that of the moment alone, for bending about either axis.", "quantifier": "for all welded I-sections and all forces", "why_tests_cant": "A test evaluates one axis for some forces; the claim is an equivalence for all.", "anchors": ["metku/sections/steel/steel_section.py:SteelSection.section_resistance", "metku/sections/steel/wi.py:WISection.shear_area", "metku/sections/steel/wi.py:WISection.bending_resistance"]}
{"id": "C210", "title": "Section properties of a WQ section are those of its four plates", "statement": "The area, the centroid, both second moments of area, both elastic and plastic section moduli, the plastic neutral axis and the circumference reported by a WQ section equal those of the plane figure made of the bottom flange, the two webs and the top flange between them.", "quantifier": "for all WQ sections with positive dimensions whose webs stand on the bottom flange", "why_tests_cant": "A missing web or an exchanged dimension gives plausible numbers; only comparison with the integrals for all dimensions shows it.", "anchors": ["metku/sections/steel/wq.py:WQSection.area", "metku/sections/steel/wq.py:WQSection.elastic_neutral_axis", "metku/sections/steel/wq.py:WQSection.second_moment", "metku/sections/steel/wq.py:WQSection.section_modulus", "metku/sections/steel/wq.py:WQSection.plastic_section_modulus", "metku/sections/steel/wq.py:WQSection.plastic_neutral_axis", "metku/sections/steel/wq.py:WQSection.paint_area"]}
{"id": "C211", "title": "The check of a WQ section returns ratios of forces to resistances", "statement": "The check of the cross-section of a new WQ section returns the ratios of the axial force, the shear force and the moment to their resistances for all forces, with the plastic moment resistance of the plane figure for classes 1 and 2 and the elastic one above.", "quantifier": "for all WQ sections, all forces and both axes", "why_tests_cant": "The claim is that no section and no forces make the check fail.", "anchors": ["metku/sections/steel/wq.py:WQSection.__init__", "metku/sections/steel/wq.py:WQSection.moment_axial_force_interact", "metku/sections/steel/steel_section.py:SteelSection.section_resistance", "metku/sections/steel/steel_section.py:SteelSection.bending_resistance"]}
{"id": "C212", "title": "The annual cost of an investment is the payment that clears it", "statement": "The annual cost of an investment with interest is the yearly payment that exactly clears the debt at the end of its last year of use; together the payments are at least the investment.", "quantifier": "for every investment, every rate of interest and every number of years", "why_tests_cant": "That the payment clears the debt is an induction over the years for every rate, and the rate zero raises an exception.", "anchors": ["metku/cost/workshop.py:annual_cost"]}
{"id": "C213", "title": "The cost of a job in the workshop does not depend on earlier jobs", "statement": "The same job (cutting, welding, sawing, blasting, painting) costs the same, or fails in the same way, whatever jobs were evaluated in the workshop before, although cost centres remember times, sizes and consumption.", "quantifier": "for every workshop, every sequence of earlier jobs and every job", "why_tests_cant": "The cost centres keep state between calls, so the property is about every history of calls.", "anchors": ["metku/cost/workshop.py:CostCentre.cost", "metku/cost/workshop.py:BlastingCost.cost", "metku/cost/workshop.py:CuttingCost.cost", "metku/cost/workshop.py:WeldingCost.cost", "metku/cost/workshop.py:SawingCost.cost", "metku/cost/workshop.py:PaintingCost.cost"]}
{"id": "C214", "title": "Work costs something, and more work costs more", "statement": "The cost of a job is never negative, and a longer cut, a longer weld, a longer blasted part and a larger painted area cost more.", "quantifier": "for every workshop with rates that are not negative, every plate thickness, weld type and size, and all amounts of work", "why_tests_cant": "Cutting speeds and welding times are polynomials fitted to data; where they become negative can only be found by treating thickness and size as unknowns.", "anchors": ["metku/cost/workshop.py:CuttingCost", "metku/cost/workshop.py:WeldingCost", "metku/cost/workshop.py:BlastingCost", "metku/cost/workshop.py:PaintingCost"]}
{"id": "C215", "title": "Thicker plates and larger welds do not cost less", "statement": "Cutting the same length in a thicker plate, or welding the same length with a larger weld, does not cost less.", "quantifier": "for every workshop with rates that are not negative, all pairs of thicknesses or weld sizes and every length", "why_tests_cant": "Monotonicity is about all pairs of values, and the cutting formula changes at 30 mm.", "anchors": ["metku/cost/workshop.py:CuttingCost.cost", "metku/cost/workshop.py:WeldingCost.cost"]}
{"id": "C216", "title": "Sawing costs add up over the ends of a member", "statement": "Sawing a member has a cost that is not negative, does not depend on the order of its ends, grows with its length and the number of bevels, and includes for each end the wear of the blade.", "quantifier": "for every workshop with rates that are not negative, every member and every list of sawn ends", "why_tests_cant": "The statement is about every list of ends; a mistake in the consumption of the blade only scales a small part of the cost.", "anchors": ["metku/cost/workshop.py:SawingCost.cost", "metku/cost/workshop.py:SawingCost.consumables"]}
{"id": "C217", "title": "Painting uses the paint that leaves the films with their dry thickness", "statement": "The volume of each paint is such that its solids form a film of the specified dry thickness on the painted area; time and cost follow from these volumes.", "quantifier": "for every workshop, paint system and area", "why_tests_cant": "The relation between the solids, the wet volume and the cost is an identity in the area for every paint system.", "anchors": ["metku/cost/workshop.py:PaintingCost.cost", "metku/cost/workshop.py:PaintingCost.painting_time"]}
{"id": "C218", "title": "The cost of a plate is the sum of material and work", "statement": "The cost of a rectangular plate is the price of its material by weight, with the surcharges of grade and thickness, plus cutting along its outline, painting of all faces, blasting, welding around it if it is welded and cutting its holes if it has any. Asking again gives the same cost.", "quantifier": "for every plate with any history of changes and cost evaluations, every workshop and every price", "why_tests_cant": "The cost is kept in a dictionary that is only partly overwritten, so the property depends on the whole history of the plate.", "anchors": ["metku/structures/steel/plates.py:RectPlate.cost", "metku/structures/steel/plates.py:RectPlate.paint_area", "metku/cost/cost_data.py:thickness_add_on", "metku/cost/cost_data.py:steel_grade_add_on"]}
{"id": "C219", "title": "The cost of an end plate joint is the sum of its parts", "statement": "The cost of an end plate joint is the cost of its plate and stiffeners at the given price of steel, of two bolts with nuts and washers and of the holes in plate and column for each bolt row, and of welds along the whole outline of the beam. Asking again gives the same cost.", "quantifier": "for every joint, every list of bolt rows, every set of stiffeners, every table of bolt prices, every workshop and every price of steel", "why_tests_cant": "The sum runs over any number of rows and stiffeners, and parts that are left out (a nut, a washer, holes, the given price) do not show in a plausible number.", "anchors": ["metku/structures/steel/end_plate_joint.py:EndPlateJoint.cost", "metku/cost/cost_data.py:nut_unit_cost", "metku/cost/cost_data.py:washer_unit_cost"]}
{"id": "C220", "title": "The cost of a fin plate joint is the sum of its parts", "statement": "The cost of a fin plate joint is the cost of its plate with one hole for each bolt at the given price of steel, of one bolt, nut and washer and one hole in the beam for each bolt, and of two welds along the plate. Asking again gives the same cost.", "quantifier": "for every joint, every pattern of bolts, every table of bolt prices, every workshop and every price of steel", "why_tests_cant": "The sum depends on the pattern of bolts and on state kept by plate and workshop between evaluations.", "anchors": ["metku/structures/steel/fin_plate_joint.py:FinPlateJoint.cost", "metku/structures/steel/plates.py:RectPlateWithHoles.cost"]}
{"id": "C221", "title": "Two of height, ridge height and slope determine a roof truss", "statement": "A sloped truss is described by two of: its height at the supports, its height at the ridge, its slope. The given two are kept, the third follows from them (ridge height = height + half span × tangent of the slope), and a truss whose ridge would lie below the eaves is refused.", "quantifier": "for all spans, offsets, heights and slopes", "why_tests_cant": "The relation must hold for all real dimensions, and the value zero stands both for \"not given\" and for a dimension, which samples of ordinary trusses never show.", "anchors": ["metku/raami/raami_plane_truss.py:SlopedTruss.__init__"]}
{"id": "C222", "title": "A generated roof truss has the shape that was asked for", "statement": "For each topology (K, N, KT), any number of divisions, both directions of the first diagonal and with or without edge verticals, the generated top chord runs from the left eave over the ridge to the right eave, with all its nodes on the two straight roof lines, the bottom chord is horizontal at the given depth between the given offsets, nodes are in order from left to right and all distinct, consecutive nodes are joined by chord members, and a truss with equal halves is its own mirror image.", "quantifier": "for all dimensions, all topologies, all numbers of divisions, both diagonal directions, with and without edge verticals", "why_tests_cant": "The number of nodes is unbounded and each topology has its own branches for zero and positive offsets, so samples leave most combinations of branch and size untried.", "anchors": ["metku/raami/raami_plane_truss.py:SlopedTruss.generate_topology", "metku/raami/raami_plane_truss.py:SlopedTruss.__init__"]}
{"id": "C223", "title": "The braces of a generated roof truss form a planar web without gaps", "statement": "Each brace joins an existing node of the top chord with an existing node of the bottom chord, no brace is generated twice, no two braces cross, each node of the chords is held by a brace except at ends left open on request, the number of members is twice the number of nodes minus three (two less without edge verticals at zero offset), the first diagonal rises or falls as asked, and N and KT trusses have a vertical at each bottom node.", "quantifier": "for all dimensions, all topologies, all numbers of divisions, both diagonal directions, with and without edge verticals", "why_tests_cant": "Braces are generated by index arithmetic over lists of unbounded length; an index that is off by one only at one end of one topology is easily missed.", "anchors": ["metku/raami/raami_plane_truss.py:SlopedTruss.generate_topology"]}
{"id": "C224", "title": "A generated and supported roof truss is stable and statically determinate", "statement": "A generated roof truss with its generated supports has no mechanism: a displacement of the nodes that respects the supports and leaves all member lengths unchanged to first order is zero. The number of members plus the number of reactions is twice the number of nodes, so forces follow from equilibrium alone.", "quantifier": "for all dimensions, all topologies, all numbers of divisions, both diagonal directions, and all displacements of all nodes", "why_tests_cant": "Absence of a mechanism is a statement about all displacement fields of trusses of any size.", "anchors": ["metku/raami/raami_plane_truss.py:SlopedTruss.generate_topology", "metku/raami/raami_plane_truss.py:SlopedTruss.generate_supports"]}
{"id": "C225", "title": "A generated roof truss is supported at both ends of its span", "statement": "The supports generated for a roof truss are two nodes of the truss itself at the same level, a whole span apart: the eaves when the bottom chord is shorter than the top chord, otherwise the ends of the bottom chord. The left one holds both directions and the right one only the vertical direction.", "quantifier": "for all dimensions, all topologies, all numbers of divisions, both diagonal directions, with and without edge verticals", "why_tests_cant": "Which node is supported depends on the offsets and the number of nodes that the topology generates, and both are unbounded.", "anchors": ["metku/raami/raami_plane_truss.py:SlopedTruss.generate_supports", "metku/raami/raami_plane_truss.py:SlopedTruss.generate_topology"]}
{"id": "C226", "title": "Loads on the chords of a roof truss are the loads that were asked for", "statement": "A uniform load on a chord acts with the given value on each member of that chord and on nothing else. A piecewise uniform load acts at each point of the top chord with the value of the zone in which the point lies, exactly once, so that its resultant is the sum over the zones of value times length.", "quantifier": "for all generated trusses, all load values, all zone boundaries and all points of the chord", "why_tests_cant": "Zone boundaries can lie anywhere relative to the nodes of a chord of any number of members; a member that is skipped or loaded twice for one position of the boundary is not found by samples.", "anchors": ["metku/raami/raami_plane_truss.py:SlopedTruss.generate_uniform_load", "metku/raami/raami_plane_truss.py:SlopedTruss.generate_piecewise_uniform_load"]}
{"id": "C227", "title": "The joints of a roof truss match its members", "statement": "After the joints are generated there is exactly one joint at each node where braces meet, it lists exactly the chord members and braces that end at the node, and it is a Y, K or KT joint when one, two or three braces meet. Each brace knows the joint at its upper and lower end, each chord member lists the joints of its two ends in order, and the ridge joint is the joint at the ridge.", "quantifier": "for all dimensions, all topologies, all numbers of divisions, both diagonal directions, with and without edge verticals, and all members and nodes", "why_tests_cant": "The correspondence concerns every node of trusses of any size, and depends on which branch of the topology generator made the braces at the ends and at the ridge.", "anchors": ["metku/raami/raami_plane_truss.py:SlopedTruss.generate_joints", "metku/raami/raami_plane_truss.py:TubularJoint.__init__"]}
{"id": "C228", "title": "The gap of a K joint is the distance between its braces on the chord face", "statement": "For a K joint of a roof truss, the intersection of the brace axes lies at the stored eccentricity from the chord axis, and the gap reported by the joint is the distance between the points where the facing edges of the two braces meet the chord face. The points of a brace at the joint lie on its axis, one on the chord face and one on the chord axis.", "quantifier": "for all chord directions, eccentricities, brace directions and brace and chord heights", "why_tests_cant": "The gap depends on two angles measured with respect to a sloping chord; it agrees with the drawing for ordinary angles and goes wrong for particular combinations of slopes only.", "anchors": ["metku/raami/raami_plane_truss.py:TubularKGapJoint.calc_gap", "metku/raami/raami_plane_truss.py:TubularKGapJoint.xp_coord", "metku/raami/raami_plane_truss.py:TubularKGapJoint.brace_chord_face_x", "metku/raami/raami_plane_truss.py:TubularJoint.brace_angle"]}
{"id": "C229", "title": "Moving a K joint moves its mirror image", "statement": "Two K joints that know each other as symmetric stay mirror images of each other whatever is assigned to the local coordinates of either of them; the intersection point is where the local coordinates say, and the local coordinates are the last ones assigned.", "quantifier": "for all nodes, chord directions and all sequences of assignments through either joint", "why_tests_cant": "An optimiser assigns coordinates through either joint in any order; a sign that is wrong for one order only moves the truss out of symmetry after several assignments.", "anchors": ["metku/raami/raami_plane_truss.py:TubularKGapJoint.yloc", "metku/raami/raami_plane_truss.py:TubularKGapJoint.xloc", "metku/raami/raami_plane_truss.py:TubularJoint.symmetry_joint"]}
{"id": "C230", "title": "The utilisation of a Y joint of a truss compares the brace force with the resistance of the joint", "statement": "Designing a Y joint of a roof truss returns the force of the brace over the resistance of the chord face of EN 1993-1-8 (chord web and brace for wide braces), with the reduction for the stress in the chord.", "quantifier": "for all sections, steel grades, angles and forces", "why_tests_cant": "Each branch of the width ratio, steel grade and chord stress needs its own value; a factor applied as exponent gives plausible numbers.", "anchors": ["metku/raami/raami_plane_truss.py:TubularYJoint.design", "metku/raami/raami_plane_truss.py:TubularYJoint.chord_face_failure", "metku/raami/raami_plane_truss.py:TubularYJoint.fb"]}
{"id": "C231", "title": "The utilisation of a K joint of a truss covers all failure modes", "statement": "Designing a K gap joint of a roof truss returns for each brace the least factor by which the resistances for chord face failure, brace failure and punching shear have to be multiplied to carry the brace force, with the chord stress factor of the larger chord force, and takes account of the shear in the gap.", "quantifier": "for all sections, steel grades, angles, gaps and forces", "why_tests_cant": "A failure mode that is computed but not used changes nothing in joints that fail in another mode.", "anchors": ["metku/raami/raami_plane_truss.py:TubularKGapJoint.design", "metku/raami/raami_plane_truss.py:TubularKGapJoint.chord_shear", "metku/raami/raami_plane_truss.py:TubularKGapJoint.brace_failure", "metku/raami/raami_plane_truss.py:TubularKGapJoint.punching_shear"]}
{"id": "C232", "title": "The cost of a truss is the bill for its members and joints", "statement": "The cost of a truss is the sum of its costs by kind (material, blasting, painting, sawing, welding), and each kind is what the workshop charges for all members and joints: material by weight, blasting by length, painting by surface, sawing of both ends of each brace and welds around each brace at both ends. Computing it again gives the same value.", "quantifier": "for all trusses, all workshops with sound parameters and any earlier work in the workshop", "why_tests_cant": "The bill runs over trusses of any size, the workshop keeps the state of earlier jobs, and the tables of steel grades are incomplete.", "anchors": ["metku/raami/raami_plane_truss.py:PlaneTruss.cost", "metku/raami/raami_plane_truss.py:TrussBrace.cost", "metku/raami/raami_plane_truss.py:TrussBrace.sawing_cost", "metku/raami/raami_plane_truss.py:TubularJoint.cost", "metku/raami/raami_plane_truss.py:TopChord.cost", "metku/raami/raami_plane_truss.py:BottomChord.cost"]}
{"id": "C233", "title": "The welds around braces have full strength", "statement": "The weld size assumed for a brace is the smallest throat of a fillet weld that carries the design resistance of the wall of the brace, and its length is the perimeter of the brace, longer when the brace meets the chord at a smaller angle.", "quantifier": "for all sections, all steel grades and all angles", "why_tests_cant": "Every steel grade has its own correlation factor and strengths, and the condition concerns all sizes and angles.", "anchors": ["metku/raami/raami_plane_truss.py:TubularJoint.weld_size", "metku/raami/raami_plane_truss.py:TubularJoint.cost"]}
{"id": "C234", "title": "The detailed weights of a truss add up to its weight", "statement": "The weights reported for top chord, bottom chord and braces are the weights of their members and add up to the weight of all members; the material cost of a truss of one price is that price times the reported weights.", "quantifier": "for all trusses and all orders in which members were added", "why_tests_cant": "Trusses can have any number of members of each kind in any order.", "anchors": ["metku/raami/raami_plane_truss.py:SlopedTruss.weight_detailed", "metku/raami/raami_plane_truss.py:PlaneTruss.cost"]}
{"id": "C235", "title": "The local axes of a beam in space are right-handed and follow the member and its reference point", "statement": "The rows of the transformation of a beam element in space are a right-handed orthonormal triple: the first axis points from the first to the second node, the third lies in the plane of member and reference point on the side of the point. Without a given reference point one is chosen that is never on the line of the member, and for members in the vertical plane the local y axis is the global y axis.", "quantifier": "for all nodes in space and all reference points off the line of the member", "why_tests_cant": "Tests use members along the axes; a sign or an unnormalised axis shows up for skew members only, and the rule for the default reference point changes at vertical members.", "anchors": ["metku/framefem/elements/ebbeam.py:EBBeam3D.__init__", "metku/framefem/elements/ebbeam.py:EBBeam3D.transformation_matrix", "metku/framefem/elements/ebbeam.py:EBBeam3D.direction_cosines"]}
{"id": "C236", "title": "A beam in space stores the energy of stretching, twisting and bending in both planes and resists no rigid motion", "statement": "The stiffness matrix of a beam element in space is symmetric; twice the stored energy is that of uniform stretching, uniform twisting and of bending of the two cubic deflections in the principal planes; it is never negative and vanishes exactly for the small rigid motions. In global axes every small rigid motion of the member, about any axis, is free of nodal forces.", "quantifier": "for all materials, section properties, nodes, reference points and displacements", "why_tests_cant": "The matrix has 144 entries in which the signs of the two bending planes differ; tests with loads in one plane do not see the other, and rigid motions about skew axes involve all of them.", "anchors": ["metku/framefem/elements/ebbeam.py:EBBeam3D.local_stiffness_matrix", "metku/framefem/elements/ebbeam.py:EBBeam3D.stiffness_matrix", "metku/framefem/framefem.py:BeamSection"]}
{"id": "C237", "title": "Nodal loads of beams in space do the work of the line load", "statement": "The equivalent nodal loads of a line load on a beam element in space do the same work as the load on every cubic deflection of the member, for every direction of the load in local or global axes.", "quantifier": "for all lengths, trapezoidal intensities, directions and nodal displacements", "why_tests_cant": "The nodal moments differ in sign between the two bending planes; a wrong sign gives the right reactions and plausible deflections.", "anchors": ["metku/framefem/elements/ebbeam.py:EBBeam3D.equivalent_nodal_loads"]}
{"id": "C238", "title": "After linear statics every element knows its forces", "statement": "If the displacements of a model under a load case can be computed, linear statics returns and every element has stored one set of end forces for the case, computed from the displacements of its own two nodes.", "quantifier": "for all models, mixtures of element types, loads and load cases", "why_tests_cant": "The analysis treats all elements alike but each class implements the requested methods with its own parameters; only models that contain a given class under a given load reach the call that fails.", "anchors": ["metku/framefem/framefem.py:FrameFEM.linear_statics", "metku/framefem/framefem.py:Element.local_displacements", "metku/framefem/framefem.py:Element.nodal_displacements", "metku/framefem/framefem.py:LineLoad.load_and_dofs", "metku/framefem/elements/springs.py:LinearSpring.transformation_matrix", "metku/framefem/elements/eb_semi_rigid_beam.py:EBSemiRigidBeam.transformation_matrix"]}
{"id": "C239", "title": "The second-order stiffness of a beam is that of the beam-column equation", "statement": "For a member with axial force P, the second-order stiffness matrix applied to the nodal displacements gives the end forces of the deflection that solves EI v'''' - P v'' = 0 with these end values and slopes (transverse forces EI v''' - P v', moments EI v''), as long as P is not a buckling load of the clamped member; released directions carry no force.", "quantifier": "for all materials, sections, lengths, axial forces, releases and nodal displacements", "why_tests_cant": "The stability functions agree with the ordinary stiffness for small forces; a wrong coefficient appears only near the critical load and for particular combinations of displacements.", "anchors": ["metku/framefem/elements/ebbeam.py:EBBeam.local_second_order_stiffness_matrix", "metku/framefem/elements/ebbeam.py:EBBeam.second_order_stiffness_matrix"]}
{"id": "C240", "title": "Loads in second-order analysis are the reactions of the clamped beam-column", "statement": "The nodal loads used in second-order analysis for a line load on a member with axial force P are the end forces and moments of the member clamped at both ends under the same load and axial force, whichever coordinate system the load is given in and whatever its intensities at the two ends.", "quantifier": "for all members, axial forces, load directions, coordinate systems and intensities", "why_tests_cant": "The amplification of the end moments differs little from one for ordinary axial forces, and the sign conventions of local and global loads are never compared under compression.", "anchors": ["metku/framefem/elements/ebbeam.py:EBBeam.equivalent_nodal_loads", "metku/framefem/framefem.py:BeamSection"]}
{"id": "C241", "title": "Second-order analysis finds the equilibrium of the elements under their first-order forces", "statement": "The displacements found by second-order analysis are zero at the supports and balance the loads in every free direction, with the second-order stiffness of each element and the second-order loads formed from the element forces of a linear analysis of the same case; the linear results are kept.", "quantifier": "for all models, loads, load cases and previous results", "why_tests_cant": "The analysis chains a linear analysis, element-wise updates from stored forces and a second solution; mixing up the load cases or the order of elements gives results that look like second-order effects.", "anchors": ["metku/framefem/framefem.py:FrameFEM.second_order_analysis", "metku/framefem/framefem.py:FrameFEM.global_second_order_stiffness_matrix"]}
{"id": "C242", "title": "Buckling analysis returns load factors with modes in neutral equilibrium", "statement": "Every load factor returned by the buckling analysis comes with a mode at the nodes that is zero at the supports, not zero everywhere and in neutral equilibrium: for every virtual displacement admitted by the supports, the work of the elastic element stiffnesses plus the factor times the work of the geometric stiffnesses, formed from the forces of the linear analysis of the case, vanishes.", "quantifier": "for all models, load cases, numbers of modes and virtual displacements", "why_tests_cant": "The eigenvalue solver works on matrices without supported rows; the modes must be put back at the right nodes, for any numbering and supports, and the sign of the geometric stiffness decides whether factors for the load or for its reverse are found.", "anchors": ["metku/framefem/framefem.py:FrameFEM.linear_buckling", "metku/framefem/framefem.py:FrameFEM.global_geometric_stiffness_matrix"]}
{"id": "C243", "title": "Properties of thin-walled open sections are integrals over the wall", "statement": "An open section is created from its nodes and a thickness for all walls or one thickness for each wall. Its area, first and second moments, product moment and centroid are the integrals over the straight walls, its second moments about the centroid are the integrals of the squared distances from the centroid, and its torsion constant is a third of the sum of length times cubed thickness.", "quantifier": "for every list of nodes and every thickness or list of thicknesses", "why_tests_cant": "Tests compare a few standard shapes with tables; a wrong formula for inclined walls or off-centre sections is invisible for the symmetric shapes in tables.", "anchors": ["metku/eurocodes/en1993/en1993_1_3/open_prof.py:OpenProf.__init__", "metku/eurocodes/en1993/en1993_1_3/open_prof.py:OpenProf.area", "metku/eurocodes/en1993/en1993_1_3/open_prof.py:OpenProf.centroid", "metku/eurocodes/en1993/en1993_1_3/open_prof.py:OpenProf.second_moments_gc", "metku/eurocodes/en1993/en1993_1_3/open_prof.py:OpenProf.product_moment_gc", "metku/eurocodes/en1993/en1993_1_3/open_prof.py:OpenProf.torsion_constant"]}
{"id": "C244", "title": "Splitting a wall changes no property of the section", "statement": "Adding a node anywhere on a wall of an open section leaves the area, the centroid, the second moments, the shear centre, the warping constant and the torsion constant as they are, however many splits were made before.", "quantifier": "for every section, every sequence of splits, every wall and every position on it", "why_tests_cant": "The invariant ranges over all sections and all sequences of splits; a test splits one wall of one section.", "anchors": ["metku/eurocodes/en1993/en1993_1_3/open_prof.py:OpenProf.split_segment", "metku/eurocodes/en1993/en1993_1_3/open_prof.py:OpenProf.torsion_constant"]}
{"id": "C245", "title": "The shear centre and the warping constant of open sections", "statement": "The reported shear centre is the one point about which warping is orthogonal to bending about both axes, and the reported warping constant is the second moment of the warping about that point, which is non-negative and the least over all points.", "quantifier": "for every open section with non-zero area, in any unit of length", "why_tests_cant": "The characterisation is over all points of the plane and all sections; tests compare numbers for a few channels.", "anchors": ["metku/eurocodes/en1993/en1993_1_3/open_prof.py:OpenProf.sectorial_coordinates", "metku/eurocodes/en1993/en1993_1_3/open_prof.py:OpenProf.sectorial_constants", "metku/eurocodes/en1993/en1993_1_3/open_prof.py:OpenProf.shear_center", "metku/eurocodes/en1993/en1993_1_3/open_prof.py:OpenProf.warping_constant"]}
{"id": "C246", "title": "Position, orientation and direction of an open section play no part", "statement": "When an open section is moved, turned or mirrored its centroid and shear centre move with it, its second moments follow the rule for turned axes, and its area, torsion constant and warping constant stay as they are. Listing the nodes in the opposite order changes nothing. The centroid and shear centre of a symmetric section are on its axis of symmetry.", "quantifier": "for every open section with non-zero area, every motion of the plane, and both directions of the nodes", "why_tests_cant": "The group of motions is infinite; tests use sections aligned with the axes.", "anchors": ["metku/eurocodes/en1993/en1993_1_3/open_prof.py:OpenProf.shear_center", "metku/eurocodes/en1993/en1993_1_3/open_prof.py:OpenProf.warping_constant", "metku/eurocodes/en1993/en1993_1_3/open_prof.py:OpenProf.second_moments_gc"]}
{"id": "C247", "title": "Resistance of a single web to a transverse force", "statement": "The resistance of an unstiffened or stiffened web to a local force is that of EN 1993-1-3, 6.1.7.2, for every angle of the web: it never exceeds that value, grows with the bearing length, and never falls when the flanges are stiffened.", "quantifier": "for every strength, thickness, height, bearing length, radius, angle and position of the load", "why_tests_cant": "The rule has ten branches over eight real arguments; a test samples points of a branch, usually with a perpendicular web, and cannot show monotonicity across branches.", "anchors": ["metku/eurocodes/en1993/en1993_1_3/en1993_1_3.py:RwRd"]}
{"id": "C248", "title": "Resistance of sheeting with two or more webs to a transverse force", "statement": "A value is returned for every position of the load or support. A wider support never lowers it, a larger difference of the shear forces on the two sides never raises it, the signs of the shear forces are of no consequence, and a load away from the ends never has less resistance than one near an end. Both generations of the code are covered.", "quantifier": "for every sheet, bearing length, position and pair of shear forces", "why_tests_cant": "Monotonicity relates infinitely many pairs of inputs and crosses the boundary between the two categories and the interpolated range.", "anchors": ["metku/eurocodes/en1993/en1993_1_3/en1993_1_3.py:RwRd_two_webs"]}
{"id": "C249", "title": "Resistances of self-tapping screws", "statement": "The bearing resistance is that of EN 1993-1-3, table 8.2, with linear interpolation between equal sheets and a thick support; a thicker second sheet never lowers it. The check of the range of validity accepts exactly the joints of that table. Shear resistances grow with the diameter and are never higher for stainless screws. In fire the bearing resistance follows from the strength of the sheet.", "quantifier": "for every sheet thickness, diameter, strength, spacing and material name", "why_tests_cant": "The interpolated range and the borders of the range of validity are continua; a test can only sample them.", "anchors": ["metku/eurocodes/en1993/en1993_1_3/en1993_1_3.py:screw_bearing_resistance", "metku/eurocodes/en1993/en1993_1_3/en1993_1_3.py:screw_validity", "metku/eurocodes/en1993/en1993_1_3/en1993_1_3.py:screw_shear_resistance_fin", "metku/eurocodes/en1993/en1993_1_3/en1993_1_3.py:screw_bearing_resistance_elevated_temp", "metku/eurocodes/en1993/en1993_1_3/en1993_1_3.py:linear_interpolation"]}
{"id": "C250", "title": "Strength and buckling factors of cold-formed parts", "statement": "The average yield strength lies between the basic one and the mean of yield and ultimate strength and never falls with more bends. The factor for distortional buckling lies between 0 and 1 and falls with the slenderness. The buckling factor of edge stiffeners lies between 0.5 and 0.83 and never falls with their width. The notional width adds the projections of the corners, given as numbers or lists. The axial resistance lies between basic and average strength and never rises with the slenderness.", "quantifier": "for every strength, thickness, slenderness, ratio of widths and list of corners", "why_tests_cant": "Bounds and monotonicity over real slendernesses include the seams between branches, where samples miss jumps of a fraction of a percent.", "anchors": ["metku/eurocodes/en1993/en1993_1_3/en1993_1_3.py:fya", "metku/eurocodes/en1993/en1993_1_3/en1993_1_3.py:distortional_buckling_reduction_factor", "metku/eurocodes/en1993/en1993_1_3/en1993_1_3.py:buckling_factor_edge_stiffener", "metku/eurocodes/en1993/en1993_1_3/en1993_1_3.py:notional_width", "metku/eurocodes/en1993/en1993_1_3/en1993_1_3.py:axial_force_resistance"]}
{"id": "C251", "title": "Geometry of trapezoidal sheets", "statement": "Web length, pitch, sheet width and area of a trapezoidal sheet are those of a corrugation whose webs climb the height between the middle lines at the given angle.", "quantifier": "for every height, flange widths, angle and number of troughs", "why_tests_cant": "The geometry has to close for every angle; nearly vertical webs hide a sine in the wrong place.", "anchors": ["metku/eurocodes/en1993/en1993_1_3/trapezoidal.py:TrapezoidalSheet.sw", "metku/eurocodes/en1993/en1993_1_3/trapezoidal.py:TrapezoidalSheet.pitch", "metku/eurocodes/en1993/en1993_1_3/trapezoidal.py:TrapezoidalSheet.A", "metku/eurocodes/en1993/en1993_1_3/trapezoidal.py:TrapezoidalSheet.width"]}
{"id": "C252", "title": "Rotational stiffness of the connection between sheeting and purlin", "statement": "For both directions of the load and both positions of the sheet the stiffness is a positive number which grows with the width of the purlin flange and falls with the spacing of the corrugations and the width of the sheet flange.", "quantifier": "for every purlin width, thickness, load intensity, flange width and spacing", "why_tests_cant": "A missing branch and a misspelt variable only show for particular combinations of thickness, position and load; monotonicity covers infinitely many pairs.", "anchors": ["metku/eurocodes/en1993/en1993_1_3/en1993_1_3.py:CD_A"]}
{"id": "C253", "title": "Linear and mixed-integer programs are solved as posed", "statement": "The LP and MILP solvers store a design that is optimal for the problem the user posed, report it as feasible exactly then, and store no design when the problem has none.", "quantifier": "for every problem, objective, direction and every library that solves the linear model it is given", "why_tests_cant": "The claim ranges over all problems and all correct libraries; tests run one library on a few problems, mostly without locked variables or mixed types of constraints.", "anchors": ["metku/optimization/solvers/lp.py:LP.solve", "metku/optimization/solvers/milp.py:MILP.solve"]}
{"id": "C254", "title": "SciPy solvers keep bounds and constraints", "statement": "A design that SLSQP, COBYLA or the trust-region solver reports as feasible lies within the bounds and meets every constraint of the problem; the stored objective value is that of the stored design; no design of the problem is hidden from the library; locked variables keep their values.", "quantifier": "for every problem, start point and every library whose answers hold for the problem it is given", "why_tests_cant": "Feasibility of answers depends on how every type of constraint is translated for every mix of locked and free variables; a numerical test checks one optimum.", "anchors": ["metku/optimization/solvers/slsqp.py:SLSQP.solve", "metku/optimization/solvers/slsqp.py:COBYLA.solve", "metku/optimization/solvers/trust_region.py:TrustRegionConstr.solve"]}
{"id": "C255", "title": "Steepest descent never goes uphill", "statement": "Steepest descent ends after at most the allowed number of steps without an exception; the recorded iterates start at the given point, carry their own objective values, and the objective never grows; it stops early only at a point with a vanishing gradient or after two steps without progress.", "quantifier": "for every objective, gradient, start point, number of steps and line search", "why_tests_cant": "The claim is about whole runs of any length on any function; a test sees one function and one line search that succeeds.", "anchors": ["metku/optimization/solvers/steepest.py:SteepestDescent.solve"]}
{"id": "C256", "title": "Augmented Lagrangian method", "statement": "The method makes at most the allowed number of steps, keeps each iterate with its objective value, keeps the multipliers of inequalities and bounds non-negative and multiplies both penalty factors by 1.5 for each update. When the multipliers have settled and the library minimises the augmented Lagrangian, the design is feasible and no feasible design is better.", "quantifier": "for every problem, library, stopping rule, start point, number of steps and penalty factor", "why_tests_cant": "Optimality at a fixed point is a statement about all competing designs, and the history about every run; tests look at the last iterate of a few runs.", "anchors": ["metku/optimization/solvers/alm.py:ALM.solve", "metku/optimization/structopt.py:OptimizationProblem.augmented_lagrangian", "metku/optimization/structopt.py:OptimizationProblem.update_lag_mult"]}
{"id": "C257", "title": "Grid search runs every combination once", "statement": "Grid search starts the solver once for every combination of one value for each parameter of the solver and of the problem, for no other, and never twice for the same.", "quantifier": "for every list of parameters and values", "why_tests_cant": "The set of runs is a product of any number of lists of any length; a test counts one small grid.", "anchors": ["metku/optimization/solvers/grid_search.py:GridSearch.run", "metku/optimization/solvers/grid_search.py:GridSearch.__init__"]}
{"id": "C258", "title": "Creep of concrete", "statement": "The creep coefficient is that of EN 1992-1-1 annex B for normal and for high strengths. It is zero at loading, never falls with time, tends to the notional coefficient and never exceeds it. Thicker members, later loading and moister air never give more creep.", "quantifier": "for every strength, humidity, notional size, time of loading and time", "why_tests_cant": "Limits and monotonicity are statements about all times and sizes; tests compare a few values with tables.", "anchors": ["metku/eurocodes/en1992/constants.py:Concrete.creep_coefficient"]}
{"id": "C259", "title": "Concrete inside a tube", "statement": "Area, second moment of area and plastic modulus of the concrete of a filled tube are those of the inside of the tube with its rounded corners, less the four bars. Reading a concrete cover that was set gives the value that was set, and by default all bars have a cover of 30 mm.", "quantifier": "for every tube, corner radius, bar and cover", "why_tests_cant": "The properties are integrals over a shape with rounded corners; a test compares one profile with rounded table values, where a wrong corner term hides in the rounding.", "anchors": ["metku/sections/composite/composite_column.py:ConcreteFilledTube.Ac", "metku/sections/composite/composite_column.py:ConcreteFilledTube.Ic", "metku/sections/composite/composite_column.py:ConcreteFilledTube.Wpc", "metku/sections/composite/composite_column.py:ConcreteFilledTube.v"]}
{"id": "C260", "title": "Buckling resistance of filled tubes", "statement": "The buckling resistance of a filled tube about either axis is positive and exceeds neither the plastic resistance nor the elastic critical force of the effective stiffness; longer columns and columns with more permanent load are never stronger.", "quantifier": "for every column with positive parts, every axial force and every length and share of permanent load", "why_tests_cant": "Bounds and monotonicity hold for all lengths and loads; a test checks one column about its major axis.", "anchors": ["metku/sections/composite/composite_column.py:ConcreteFilledTube.NbRd", "metku/sections/composite/composite_column.py:ConcreteFilledTube.Ncr", "metku/sections/composite/composite_column.py:ConcreteFilledTube.EIeff"]}
{"id": "C261", "title": "Plastic moment resistance of filled tubes", "statement": "The plastic moment resistance of a filled tube is the moment of stress blocks in tube, bars and concrete that are in balance about the returned neutral axis.", "quantifier": "for every tube, concrete, bar and position of the bars", "why_tests_cant": "Balance has to hold wherever the neutral axis lies relative to the bars; tests use columns whose bars are far from it.", "anchors": ["metku/sections/composite/composite_column.py:ConcreteFilledTube.MplRd", "metku/sections/composite/composite_column.py:ConcreteFilledTube.Mpl_max_Rd"]}
{"id": "C262", "title": "Compression and bending of filled tubes", "statement": "The design moment of a filled tube is at least each end moment and at least the moment of the initial bow, amplified when second order counts, regardless of the sign of the moments; the printed utilisation is at most one exactly if this moment fits into the share of the plastic resistance that the axial force leaves, and an axial force above the plastic resistance or the critical force is never accepted.", "quantifier": "for every column, axial force and pair of end moments", "why_tests_cant": "The dangerous cases are overloaded columns and moments of the other sign, for which a test would need to know that no check fires.", "anchors": ["metku/sections/composite/composite_column.py:ConcreteFilledTube.design"]}
{"id": "C263", "title": "Elastic composite beams", "statement": "The centroid of a composite beam is where the axial stiffnesses of steel and slab balance, between their own centroids. The bending stiffness about it is the least about any parallel axis and equals that of the parts and of their couple, that is the stiffness without composite action times one plus the composite coefficient. Creep softens the beam and moves the centroid towards the steel part.", "quantifier": "for every beam, slab and concrete, short and long term", "why_tests_cant": "Minimality over all axes and the effect of creep are universal statements; tests compare one beam.", "anchors": ["metku/sections/composite/composite_beam.py:CompositeIBeam.centroid", "metku/sections/composite/composite_beam.py:CompositeIBeam.EIcom", "metku/sections/composite/composite_beam.py:CompositeIBeam.composite_coefficient"]}
{"id": "C264", "title": "Plastic resistance of composite beams", "statement": "The plastic moment resistance of a composite beam is the moment of stress blocks in slab, flanges and web that are in balance about the plastic neutral axis, wherever that axis lies and for rolled and welded sections alike.", "quantifier": "for every steel section of three plates and every slab", "why_tests_cant": "The three cases give values that differ little near their boundaries; a test with a strong slab never reaches the others.", "anchors": ["metku/sections/composite/composite_beam.py:CompositeIBeam.MplRd", "metku/sections/composite/composite_beam.py:CompositeIBeam.plastic_neutral_axis", "metku/sections/composite/composite_beam.py:CompositeIBeam.Rc"]}
{"id": "C265", "title": "Resistance of shear studs", "statement": "The resistance of a headed stud is the smaller of the steel and concrete terms of EN 1994-1-1, 6.6.3.1, both with the partial factor.", "quantifier": "for every stud, concrete and partial factor", "why_tests_cant": "Where the concrete term governs, a wrong steel term has no effect; a test with weak concrete passes.", "anchors": ["metku/eurocodes/en1994/en1994_1_1.py:ShearStud.PRd"]}
{"id": "C266", "title": "Truss sizing program and its optimum", "statement": "The mixed-integer program that the truss optimiser stores for sizing has as its points exactly the designs of the truss: one profile from the list of each member, displacements within the bounds, axial forces given by Hooke's law, in balance with the load and within the tension and compression resistances of the chosen profiles. A best point is a lightest design.", "quantifier": "for every ground structure, list of profiles, load and point of the program", "why_tests_cant": "That no design is lost and no false one is let in is a statement about all points of the program; a test solves one truss and looks at one answer.", "anchors": ["metku/optimization/problems/truss_milp.py:TrussMILP.create_milp", "metku/optimization/problems/truss_milp.py:TrussMILP.compatibility_constraints", "metku/optimization/problems/truss_milp.py:TrussMILP.strength_constraints", "metku/optimization/problems/truss_milp.py:TrussMILP.weight_obj"]}
{"id": "C267", "title": "Scaling of the truss program", "statement": "Scaling factors for forces and lengths only change the units of the variables of the truss program: the designs that it admits stay the same.", "quantifier": "for every positive force factor and length factor", "why_tests_cant": "Factors other than those of the one example may let in unsafe designs or shut out all; that takes a statement about every pair of factors.", "anchors": ["metku/optimization/problems/truss_milp.py:TrussMILP.__init__", "metku/optimization/problems/truss_milp.py:TrussMILP.strength_constraints"]}
{"id": "C268", "title": "Several load cases in the truss program", "statement": "With several load cases the chosen profiles carry each of them: in every case forces balance the load of that case and stay within the resistances.", "quantifier": "for every truss and number of load cases", "why_tests_cant": "A wrong index of a load case does not show with one case; a test with two equal cases passes as well.", "anchors": ["metku/optimization/problems/truss_milp.py:TrussMILP.create_milp", "metku/optimization/problems/truss_milp.py:TrussMILP.strength_constraints"]}
{"id": "C269", "title": "Topology of trusses", "statement": "In the topology program members may be left out. Members left out carry no force and weigh nothing, members that remain end at nodes that remain, each remaining node joins at least two members (one at a support), members and supports suffice for the nodes, and at least two supported nodes remain.", "quantifier": "for every ground structure, set of supports and point of the program", "why_tests_cant": "Which subsets of members are admitted is a statement about exponentially many topologies.", "anchors": ["metku/optimization/problems/truss_milp.py:TrussMILP.add_topology_constraints", "metku/optimization/problems/truss_milp.py:TrussMILP.add_top_opt_vars", "metku/optimization/problems/truss_milp.py:TrussMILP.gather_node_data"]}
{"id": "C270", "title": "Groups of members in the truss program", "statement": "All members of a group that are present have the same profile, and grouping shuts out no design of which this is true.", "quantifier": "for every family of groups, truss and point of the program", "why_tests_cant": "Both directions are statements about all points of a program with auxiliary variables; a test sees one solution.", "anchors": ["metku/optimization/problems/truss_milp.py:TrussMILP.add_topology_constraints", "metku/optimization/problems/truss_milp.py:TrussMILP.create_milp"]}
{"id": "C271", "title": "Lists of profiles of the members", "statement": "A list of profiles given for a single member takes precedence over the list of a group, and a later list over an earlier one; members without a list may have every profile. A list for a member that does not exist is refused.", "quantifier": "for every number of members and every sequence of lists", "why_tests_cant": "Precedence is about every order of overlapping lists; tests use disjoint groups.", "anchors": ["metku/optimization/problems/truss_milp.py:TrussMILP.__init__"]}
{"id": "C272", "title": "Section resistance in the structural problem", "statement": "In a structural optimisation problem, a design that meets the constraints on compression, tension, shear and bending moment has internal forces within the section resistances at both ends of every element; a problem made without a choice of constraints has these four and can be evaluated.", "quantifier": "for every member, element, force and positive resistance", "why_tests_cant": "A test sees the forces of one frame; that no element end is left out for any distribution of forces is a statement about all of them.", "anchors": ["metku/optimization/problems/structural_problem.py:StructuralProblem.cross_section_constraints", "metku/optimization/problems/structural_problem.py:StructuralProblem.__init__", "metku/framefem/framefem.py:Element.__init__"]}
{"id": "C273", "title": "Member stability in the structural problem", "statement": "In a structural optimisation problem, a design that meets the stability constraints has all compression forces within both buckling resistances, both interaction values at most 1, and all bending moments, of either sign, within the resistance to lateral-torsional buckling, for every kind of section.", "quantifier": "for every steel member, list of forces and moments, and positive resistances", "why_tests_cant": "The sign of the moments and the kind of section decide whether anything is checked; only a statement over all of them shows what the constraint lets pass.", "anchors": ["metku/optimization/problems/structural_problem.py:StructuralProblem.stability_constraints"]}
{"id": "C274", "title": "Deflection limits in the structural problem", "statement": "A deflection constraint of a member is met exactly when the displacement, in that direction, of every node of the member is within the limit in every load case.", "quantifier": "for every member, set of nodes, load cases and displacements", "why_tests_cant": "The place of the largest displacement depends on the load; a test frame whose first node moves most would pass.", "anchors": ["metku/optimization/problems/structural_problem.py:StructuralProblem.deflection_constraints"]}
{"id": "C275", "title": "Section class limits in the structural problem", "statement": "Asking for a section class makes constraints that are met exactly by sections whose web and flange are of that class or better.", "quantifier": "for every section with positive thickness and every class that is asked for", "why_tests_cant": "A test looks at some sections for one class; whether the class asked for has any influence is a statement about all of them.", "anchors": ["metku/optimization/problems/structural_problem.py:StructuralProblem.cross_section_class_constraints", "metku/optimization/problems/structural_problem.py:StructuralProblem.create_constraints"]}
{"id": "C276", "title": "Geometry of truss joints in the structural problem", "statement": "The joint geometry constraints are met exactly when the joint is in the range of validity of its design formulas: width ratios, gap, angles of the braces and eccentricity, for joints with one, two or three braces.", "quantifier": "for all tube dimensions, angles, gaps and eccentricities", "why_tests_cant": "Sixteen inequalities written as ratios must agree with the range for all dimensions, also where a ratio changes sign or cannot be formed.", "anchors": ["metku/optimization/problems/structural_problem.py:StructuralProblem.joint_geometry_constraints"]}
{"id": "C277", "title": "Strength of truss joints in the structural problem", "statement": "The joint strength constraints are met exactly when the forces in braces and chord are, in tension as in compression, within the resistances of the joint to each failure mode.", "quantifier": "for all forces and all positive resistances", "why_tests_cant": "A missing absolute value shows only for forces of one sign; tests with the other sign pass.", "anchors": ["metku/optimization/problems/structural_problem.py:StructuralProblem.joint_strength_constraints"]}
{"id": "C278", "title": "Choice of constraints in the structural problem", "statement": "Making the constraints of a problem forgets the old ones and makes exactly those that the dict asks for, one for each member, element or joint that they concern; every key of the published dict of available constraints can be used and has an effect.", "quantifier": "for every structure and dict of wanted constraints", "why_tests_cant": "The set of constraints is a function of every key and every part of the structure; a test fixes both.", "anchors": ["metku/optimization/problems/structural_problem.py:StructuralProblem.create_constraints", "metku/optimization/problems/structural_problem.py:StructuralProblem.available_constraints"]}
{"id": "C279", "title": "Constraints of groups in the structural problem", "statement": "With constraint groups, each member of a group has exactly the constraints that the dict of the problem, changed by that of the group, asks for, each once; members outside the groups and joints keep theirs; groups without constraints of their own are skipped.", "quantifier": "for every structure, dict of constraints and list of groups", "why_tests_cant": "Which old constraints are forgotten depends on their positions in the list; an example with one constraint for each member shows nothing.", "anchors": ["metku/optimization/problems/structural_problem.py:StructuralProblem.group_constraints", "metku/optimization/problems/structural_problem.py:StructuralProblem.create_constraints"]}
{"id": "C280", "title": "Design variables of the structural problem", "statement": "Each variable group becomes the design variables that it describes, with its values or bounds and its objects as targets, one for each property; without groups each member gets one index variable over the profiles of the problem; groups that cannot be turned into variables raise an error.", "quantifier": "for every list of variable groups and every structure", "why_tests_cant": "Missing keys and lists of different length make a large family of inputs; tests take the ones that work.", "anchors": ["metku/optimization/problems/structural_problem.py:StructuralProblem.create_variables"]}
{"id": "C281", "title": "Index variables turned into dimensions in the structural problem", "statement": "Turning index variables into variables of dimensions replaces each of them by one variable for each dimension, with the values of the listed profiles and the current profile as value, so that the same members are designed over the same profiles.", "quantifier": "for every list of variables, profiles and dimensions", "why_tests_cant": "That no member is lost and no profile is invented must hold for all lists; a test converts one.", "anchors": ["metku/optimization/problems/structural_problem.py:StructuralProblem.index_to_binary"]}
{"id": "C282", "title": "Seam strength of a stressed skin panel", "statement": "The shear strength of the seams of a stressed skin panel is the sum over the seam fasteners between the rafters and the share of the fasteners in the rafters, each with its bearing strength by EN 1993-1-3; it never falls when seam fasteners are put closer, and it is available for fasteners in troughs and on crests and for both rules for fasteners.", "quantifier": "for every panel, sheet, fastener spacing, fastener location and rule", "why_tests_cant": "A test computes one panel; the order in spacing and the cases with no interior fastener or another location are statements about all panels.", "anchors": ["metku/structures/steel/stressed_skin.py:StressedSkinRafters.seam_strength", "metku/structures/steel/stressed_skin.py:StressedSkin.Fs", "metku/structures/steel/stressed_skin.py:StressedSkinRafters.Fp", "metku/structures/steel/stressed_skin.py:StressedSkin.beta3"]}
{"id": "C283", "title": "Factor for the number of sheet fasteners", "statement": "The factor for the number of fasteners per sheet width has the value of the ECCS guide, never falls as fasteners are added, is at least one with fasteners in the troughs, and is never greater on the crests than in the troughs.", "quantifier": "for every number of fasteners from two on", "why_tests_cant": "The factor is a sum that depends on parity and location; order and bounds for every number need induction.", "anchors": ["metku/structures/steel/stressed_skin.py:StressedSkin.beta1"]}
{"id": "C284", "title": "Distortion constant of a trapezoidal sheet", "statement": "The distortion constant of a sheet is the entry of the ECCS table for the classes of its web angle, its depth and its top flange relative to the pitch; outside the table there is an error and no value.", "quantifier": "for every sheet", "why_tests_cant": "A ragged table of some 500 entries is indexed with computed numbers, which wrap round when negative; only a statement over all sheets says where.", "anchors": ["metku/structures/steel/stressed_skin.py:StressedSkin.K"]}
{"id": "C285", "title": "Shear flexibility of a stressed skin panel", "statement": "The shear flexibility of a panel is the sum of the guide for distortion, shear strain, fasteners and edge members; it is positive, and a thicker sheet never makes it greater.", "quantifier": "for every panel with positive dimensions", "why_tests_cant": "The numbers of fasteners are rounded, so that terms may vanish in a denominator or change sign for dimensions a test does not use.", "anchors": ["metku/structures/steel/stressed_skin.py:StressedSkinRafters.shear_flexibility", "metku/structures/steel/stressed_skin.py:StressedSkinRafters.fastener_deformation", "metku/structures/steel/stressed_skin.py:StressedSkinRafters.profile_distortion", "metku/structures/steel/stressed_skin.py:StressedSkinRafters.shear_strain"]}
{"id": "C286", "title": "Strengths of rafter fasteners, edge fasteners and sheet ends", "statement": "A panel gives the strength of the fasteners in the rafters, of the fasteners in the edge members and of the ends of the sheets; the strength of a line of fasteners is computed with the diameter of those fasteners.", "quantifier": "for every panel", "why_tests_cant": "That no panel whatever gives a value, and that a diameter has no influence, are statements about all panels.", "anchors": ["metku/structures/steel/stressed_skin.py:StressedSkinRafters.edge_member_fastener_strength", "metku/structures/steel/stressed_skin.py:StressedSkinRafters.sheet_rafter_fastener_strength", "metku/structures/steel/stressed_skin.py:StressedSkinRafters.end_collapse"]}
{"id": "C287", "title": "Symmetric simple trusses", "statement": "In a simple truss with halves of equal length and eaves of equal height the webs come in pairs that are mirror images of each other about the middle of the truss.", "quantifier": "for every number of webs, every origin, span and heights, every pair of webs", "why_tests_cant": "Locations are summed up step by step with cut-offs at the chord ends; that all pairs are symmetric for all numbers of webs needs a closed form, and the exception is only found by looking at every remainder.", "anchors": ["metku/truss2d/truss2d.py:Truss2D.generate_webs", "metku/truss2d/truss2d.py:Truss2D.generate_chords", "metku/truss2d/truss2d.py:Truss2D.add"]}
{"id": "C288", "title": "Web pattern of simple trusses", "statement": "The webs of each half of a simple truss form a chain from panel point to panel point that never goes back and stays in its half, the panel points are evenly spaced, and there are as many webs as asked for.", "quantifier": "for every truss and number of webs", "why_tests_cant": "Whether the pattern crosses the middle depends on the number of webs modulo four and on the offset of the bottom chord for all sizes.", "anchors": ["metku/truss2d/truss2d.py:Truss2D.generate_webs"]}
{"id": "C289", "title": "One joint per panel point", "statement": "Webs that end at the same place of the bottom chord share a joint, webs that end at different places have different joints, every web belongs to one joint of the chord, and joints keep their distance.", "quantifier": "for every sequence of webs added to the chord", "why_tests_cant": "The search for a joint uses rounding and a tolerance and depends on the order of all earlier webs.", "anchors": ["metku/truss2d/truss2d.py:Truss2D.add", "metku/truss2d/truss2d.py:TrussJoint.add_web", "metku/truss2d/truss2d.py:TrussJoint.loc"]}
{"id": "C290", "title": "Angle between web and chord", "statement": "The angle of a web at a joint is the acute angle between the lines of web and chord.", "quantifier": "for all directions of web and chord", "why_tests_cant": "The formula is right for horizontal chords, which tests use, and wrong for one kind of lean on a rising chord.", "anchors": ["metku/truss2d/truss2d.py:TrussJoint.theta1", "metku/truss2d/truss2d.py:TrussJoint.theta2"]}
{"id": "C291", "title": "Gap and eccentricity of K joints agree", "statement": "A gap or an eccentricity that is set is read back; the gap is the distance between the inner edges of the two webs on the chord face when their axes meet at the eccentricity; and going from the gap to the eccentricity and back changes nothing.", "quantifier": "for all section heights, angles, gaps and eccentricities", "why_tests_cant": "A round trip through trigonometric formulas for all angles is an identity, not a sample.", "anchors": ["metku/truss2d/truss2d.py:TrussJoint.e", "metku/truss2d/truss2d.py:TrussJoint.g1"]}
{"id": "C292", "title": "Deflection and joint forces of a truss", "statement": "The reported deflection is the largest vertical displacement of any bottom chord node, and joints are designed for the forces in the chord under the load that was calculated.", "quantifier": "for every number of chords, every displacement, every load and kind of joint", "why_tests_cant": "A loop that forgets all chords but the last, and a load identifier that is not handed on, show only with several chords or loads.", "anchors": ["metku/truss2d/truss2d.py:Truss2D.get_deflection", "metku/truss2d/truss2d.py:TrussJoint.update_forces", "metku/truss2d/truss2d.py:TrussJoint.N0", "metku/truss2d/truss2d.py:Truss2D.calculate"]}
{"id": "C293", "title": "Changing the heights of a truss", "statement": "After a height of a truss is set the ends of its top chords are where a truss made with that height has them, for every truss that can be made; trusses can be made with a load and as columns.", "quantifier": "for every truss and every new height", "why_tests_cant": "Agreement of two ways to the same geometry is a statement over all trusses; the failures hit whole classes of trusses.", "anchors": ["metku/truss2d/truss2d.py:Truss2D.H1", "metku/truss2d/truss2d.py:Truss2D.H2", "metku/truss2d/truss2d.py:Truss2D.H3", "metku/truss2d/truss2d.py:Truss2D.generate_chords", "metku/truss2d/truss2d.py:TrussColumn", "metku/truss2d/truss2d.py:TrussMember.check_cross_section"]}
{"id": "C294", "title": "Members of a truss chord", "statement": "The lengths of the members into which a chord is divided for design are not negative and add up to the length of the chord.", "quantifier": "for every chord and every set of joints", "why_tests_cant": "The sum telescopes for any number of joints; that the ends are left out is seen only when joints are off the ends.", "anchors": ["metku/truss2d/truss2d.py:TrussMember.update_steel_members_lengths"]}
{"id": "C295", "title": "Stiffness and thickness of sandwich panels", "statement": "The two bending stiffnesses of a sandwich panel add up to the bending stiffness of its two faces about their common axis, the shear stiffness follows from the core between the middle planes of the faces, and named panels have the thickness asked for.", "quantifier": "for all face and core thicknesses, moduli and widths", "why_tests_cant": "That the two parts reproduce the exact integral over unequal faces is an identity in five variables.", "anchors": ["metku/sandwich/sandwich.py:SandwichPanel.EIo", "metku/sandwich/sandwich.py:SandwichPanel.EIs", "metku/sandwich/sandwich.py:SandwichPanel.S", "metku/sandwich/sandwich.py:SandwichPanel.thickness", "metku/sandwich/sandwich.py:ruukki_panel"]}
{"id": "C296", "title": "Stiffness of sandwich panel fasteners", "statement": "The transverse stiffness of a fastener exists and is positive, is at least that of hole, clamping and bending in series for a fastener that cannot rotate, grows with the strength of the inner face; the stiffness of the inner face grows with its thickness also where the formula changes.", "quantifier": "for all positive dimensions and strengths", "why_tests_cant": "The formula subtracts compliances; that the result is never zero or negative rests on an inequality between all of them.", "anchors": ["metku/sandwich/sandwich.py:SandwichPanel.fastener_transverse_stiffness"]}
{"id": "C297", "title": "Support by sandwich panels", "statement": "The support stiffness adds over the pairs of screws, each with the square of its distance; the shear strength of a fastener grows with strength and thickness of the inner face; screws added to one panel do not change other panels.", "quantifier": "for every panel, every list of screws, every two panels", "why_tests_cant": "A default list shared by all panels shows only when one panel is changed and another looked at.", "anchors": ["metku/sandwich/sandwich.py:SandwichPanel.shear_stiffness_for_support", "metku/sandwich/sandwich.py:SandwichPanel.fastener_shear_resistance", "metku/sandwich/sandwich.py:SandwichPanel.__init__"]}
{"id": "C298", "title": "Axis and stiffness of CLT slabs", "statement": "The centroid of a slab of cross laminated timber is the axis about which the axial stiffness of its layers has no moment, stiffnesses of layers are those of their rectangles with the modulus of the grain direction, and area and bending stiffness of the slab can be had.", "quantifier": "for every layup", "why_tests_cant": "Half the height is right for every symmetric layup, which are the ones one tests.", "anchors": ["metku/structures/timber/clt_slab.py:CLTSlab.zgc", "metku/structures/timber/clt_slab.py:CLTLayer.EIy", "metku/structures/timber/clt_slab.py:CLTLayer.EIz", "metku/structures/timber/clt_slab.py:CLTSlab.EIy", "metku/structures/timber/clt_slab.py:CLTSlab.Ay"]}
{"id": "C299", "title": "CLT slabs do not influence each other", "statement": "All layers of a slab have its width and length, also after other slabs are made; every entry of the lists in a dict becomes a layer.", "quantifier": "for all sequences of two slabs and all lists", "why_tests_cant": "Layers shared by slabs of different size and lists of unequal length are silent; they need a statement over all uses.", "anchors": ["metku/structures/timber/clt_slab.py:CLTSlab.__init__", "metku/structures/timber/clt_slab.py:CLTLayer.__init__"]}
{"id": "C300", "title": "Gross area of a cold-formed section", "statement": "The area reported for a Z or C section is the thickness times the length of the mid-line modelled by straight parts and four chords per corner; it is the same for a Z and a C section of the same dimensions and within one per cent of the area with true arcs.", "quantifier": "for all dimensions with straight parts that are not negative, with or without lips on either flange, both kinds of section", "why_tests_cant": "Tests compare a few catalogue sections; they cannot show that the node lists of two classes with optional lips give the right length for every size.", "anchors": ["metku/eurocodes/en1993/en1993_1_3/cf_profs.py:ZSection.create_points", "metku/eurocodes/en1993/en1993_1_3/cf_profs.py:CSection.create_points", "metku/eurocodes/en1993/en1993_1_3/cf_profs.py:ZSection.area", "metku/eurocodes/en1993/en1993_1_3/cf_profs.py:ZSection.Agross"]}
{"id": "C301", "title": "Notional widths of cold-formed sections", "statement": "The notional width of web, flanges and lips is the distance between centre lines less the corner dimension gr for every corner of the part, it exceeds the straight part, and agrees with the general rule for corners of 90 degrees.", "quantifier": "for all dimensions with straight parts that are not negative", "why_tests_cant": "The identity ties five properties and two rules together for every size and every lip arrangement; tests check single numbers.", "anchors": ["metku/eurocodes/en1993/en1993_1_3/cf_profs.py:ZSection.bp_w", "metku/eurocodes/en1993/en1993_1_3/cf_profs.py:ZSection.bp_t", "metku/eurocodes/en1993/en1993_1_3/cf_profs.py:ZSection.gr"]}
{"id": "C302", "title": "Effective web of a C section", "statement": "A slender web loses a strip of (1-rho) times its compressed width that begins one edge part below the notional end of the web, the area falls by the strip times the thickness, and a section with all factors equal to one keeps its gross area.", "quantifier": "for all dimensions, all reduction factors, all stress ratios, whatever the factors of the flanges and lips are", "why_tests_cant": "The strip depends on the stress ratio in three cases and on node indices that depend on the lips; only a proof covers all combinations.", "anchors": ["metku/eurocodes/en1993/en1993_1_3/cf_profs.py:CSection.create_effective_model", "metku/eurocodes/en1993/en1993_1_3/cf_profs.py:ZSection.Aeff"]}
{"id": "C303", "title": "Effective flanges of a C section", "statement": "A flange with reduction factor rho below one loses (1-rho) of its notional width in the effective section.", "quantifier": "for all dimensions and all reduction factors of top and bottom flange, with and without lips", "why_tests_cant": "An error of a quarter of the flange shows only when the flange is slender; tests with stocky sections pass.", "anchors": ["metku/eurocodes/en1993/en1993_1_3/cf_profs.py:CSection.create_effective_model", "metku/eurocodes/en1993/en1993_1_3/cf_profs.py:CSection.create_edge_stiffener"]}
{"id": "C304", "title": "Slender lips and the gross section", "statement": "A lip with reduction factor below one makes the effective area smaller, and computing the effective section does not change the gross area read from the same object.", "quantifier": "for all dimensions and all reduction factors of the lips", "why_tests_cant": "The effect is on shared node objects and shows only in a second query after a slender lip.", "anchors": ["metku/eurocodes/en1993/en1993_1_3/cf_profs.py:CSection.create_edge_stiffener", "metku/eurocodes/en1993/en1993_1_3/cf_profs.py:ZSection.Aeff"]}
{"id": "C305", "title": "Effective section of a Z section", "statement": "The effective section of a Z section can be formed for every set of reduction factors, and each part loses its ineffective width.", "quantifier": "for all dimensions and all reduction factors", "why_tests_cant": "The exception occurs for every slender web and every slender lipped flange; a test must happen to use one.", "anchors": ["metku/eurocodes/en1993/en1993_1_3/cf_profs.py:ZSection.create_effective_model"]}
{"id": "C306", "title": "The effective section does not depend on earlier queries", "statement": "The reduction factors after a query for a load are those of that load alone, whatever was asked before, and unknown load names are refused.", "quantifier": "for all sections and all sequences of queries", "why_tests_cant": "Tests make a new section for each load; the dependence on history needs sequences.", "anchors": ["metku/eurocodes/en1993/en1993_1_3/cf_profs.py:ZSection.effective_section"]}
{"id": "C307", "title": "Stiffness that holds an edge stiffener", "statement": "The spring stiffness of a lipped flange follows (5.10b), is positive, and accounts for the other flange when the section is in compression.", "quantifier": "for all sections, stiffener shapes, material constants and design forces", "why_tests_cant": "The factor for the other flange depends on a force stored at construction; single tests do not compare the two.", "anchors": ["metku/eurocodes/en1993/en1993_1_3/cf_profs.py:ZSection.edge_stiffness", "metku/eurocodes/en1993/en1993_1_3/cf_profs.py:ZSection.Aeff"]}
{"id": "C308", "title": "Distortional buckling slenderness", "statement": "The slenderness squared times the critical stress is the yield strength, the reduction factor is that of the slenderness, and a stiffer support never gives a larger slenderness.", "quantifier": "for all positive strengths, stiffnesses, areas and second moments", "why_tests_cant": "Monotonicity in the spring stiffness is a statement about all pairs of sections.", "anchors": ["metku/eurocodes/en1993/en1993_1_3/cf_profs.py:ZSection.distortional_buckling", "metku/eurocodes/en1993/en1993_1_3/en1993_1_3.py:distortional_buckling_stress"]}
{"id": "C309", "title": "Stress ratio of the web", "statement": "The stress ratio is bottom stress over top stress of the linear distribution that vanishes at the centroid of the effective section; it is negative when the centroid lies between the flanges and -1 when it is at mid-height.", "quantifier": "for all heights, centroids and stress gradients", "why_tests_cant": "Tests check ratios for given sections; the identity with the linear distribution is for all of them.", "anchors": ["metku/eurocodes/en1993/en1993_1_3/cf_profs.py:ZSection.stress_ratio"]}
{"id": "C310", "title": "Axial resistance of cold-formed sections", "statement": "In tension the resistance is the average yield strength on the gross area; in compression it lies between the basic yield strength on the effective area and the average one on the gross area, is continuous at the limit slenderness, and never grows with slenderness.", "quantifier": "for all areas, strengths, slendernesses and design forces", "why_tests_cant": "Bounds and monotonicity over three slendernesses and two lip arrangements are not settled by samples.", "anchors": ["metku/eurocodes/en1993/en1993_1_3/cf_profs.py:ZSection.axial_force_resistance"]}
{"id": "C311", "title": "Lateral stiffness of purlins", "statement": "The stiffness of purlin and sheeting is that of two springs in series, below each of them; the section part follows (10.16) with the lever chosen by the sign of the lateral load; gravity and uplift are told apart for both kinds of section.", "quantifier": "for all sections, material constants, fastener positions and rotational stiffnesses", "why_tests_cant": "The two classes use different names for the same load; a test of one class with its own names passes.", "anchors": ["metku/eurocodes/en1993/en1993_1_3/cf_profs.py:ZSection.K", "metku/eurocodes/en1993/en1993_1_3/cf_profs.py:ZSection.KB", "metku/eurocodes/en1993/en1993_1_3/cf_profs.py:ZSection.kh", "metku/eurocodes/en1993/en1993_1_3/cf_profs.py:CSection.kh"]}
{"id": "C312", "title": "Catalogue of Z purlins", "statement": "Every height and thickness in the catalogue gives a section that can be formed, with equal lips and flanges that differ so that sections overlap; anything outside the catalogue is refused with an error that says so.", "quantifier": "for all heights and thicknesses", "why_tests_cant": "The catalogue is a nest of branches on two numbers; what happens between and beyond the entries is an infinite set.", "anchors": ["metku/eurocodes/en1993/en1993_1_3/cf_profs.py:ruukki_z"]}
{"id": "C313", "title": "Sharp corners are used only where the rule allows it", "statement": "The constructor keeps all dimensions, takes 1.5 times the thickness when no radius is given, and models corners as sharp exactly when asked for and r is at most 5t and a tenth of both flange widths.", "quantifier": "for all dimensions and both values of the flag", "why_tests_cant": "The rule is a conjunction of three limits over all dimensions.", "anchors": ["metku/eurocodes/en1993/en1993_1_3/cf_profs.py:ZSection.__init__"]}
{"id": "C314", "title": "Correction for rounded corners", "statement": "The area with the correction for rounded corners approximates the area of the section: the deduction is taken off the area with sharp corners.", "quantifier": "for all sections with a positive radius", "why_tests_cant": "A deduction counted twice is a small error in every section; a test with a tolerance of some per cent passes.", "anchors": ["metku/eurocodes/en1993/en1993_1_3/cf_profs.py:ZSection.area", "metku/eurocodes/en1993/en1993_1_3/en1993_1_3.py:rounding_factor"]}
{"id": "C315", "title": "Section properties of rolled sections by dimensions", "statement": "Area and plastic moduli of an I-section given by its dimensions are the integrals over the section with root fillets, second moments are within 0.05 and 0.25 per cent of them, the perimeter is the length of the outline, elastic moduli stay below plastic ones, radii of gyration below half the dimension; all sections of the catalogue fit together and grow in area within their series.", "quantifier": "for all dimensions for which the fillets fit, and for all sections of the catalogue", "why_tests_cant": "An equality with integrals over a five-parameter family of shapes.", "anchors": ["metku/profiles/steel/isection_formulas.py:area", "metku/profiles/steel/isection_formulas.py:second_moment_of_area_y", "metku/profiles/steel/isection_formulas.py:perimeter", "metku/profiles/steel/isections.py:ISection.iy", "metku/profiles/steel/isections.py:ISections"]}
{"id": "C316", "title": "Resistances of steel cross-sections", "statement": "Axial, bending and shear resistances of a steel section are the strength for its thickness times the integral that belongs to them; elastic ones do not exceed plastic ones, shear resistance does not exceed the axial one over the square root of three.", "quantifier": "for all materials and all sections that fit together", "why_tests_cant": "The inequalities are between resistances of all sections; the strength of thick plates matters only above 40 mm.", "anchors": ["metku/design/steel_section.py:SteelSection.NcRd", "metku/design/steel_section.py:SteelSection.MplyRd", "metku/design/steel_section.py:SteelSection.MelyRd", "metku/design/steel_section.py:SteelSection.VzRd", "metku/materials/steel.py:SteelMaterial"]}
{"id": "C317", "title": "Named materials are in consistent units", "statement": "Every predefined material gives its modulus in MPa like its strengths, its ultimate strength exceeds its yield strength, and the strength for thick parts is the ordinary one unless given.", "quantifier": "for all predefined materials and all strengths", "why_tests_cant": "Tests use one or two of the materials; a modulus in another unit shows only where it is used.", "anchors": ["metku/materials/steel.py:SteelMaterial.__post_init__", "metku/materials/steel.py:Steel", "metku/materials/steel.py:StainlessSteel"]}
{"id": "C318", "title": "Units convert numbers without memory", "statement": "A number times a unit is the number in base units, showing it in the same unit gives the number back, and converting several numbers one after another gives for each what converting it alone gives.", "quantifier": "for all numbers, all units and all sequences of conversions", "why_tests_cant": "A unit that remembers earlier factors gives right results in any test that converts once.", "anchors": ["metku/settings/settings.py:Unit.__rmul__", "metku/settings/settings.py:Unit.__call__", "metku/settings/settings.py:SIBaseUnit.__rmul__"]}
{"id": "C319", "title": "Cold-formed members", "statement": "The buckling strength of a member with a cold-formed section exists, is at most the strength of the effective area and at most the elastic buckling force; the shear stiffness needed for full lateral support follows (10.1a) and decreases with the length.", "quantifier": "for all profiles, lengths and buckling length factors", "why_tests_cant": "The bounds hold for a continuum of slendernesses; the missing attribute needs the two classes together.", "anchors": ["metku/structures/steel/cf_steel_member.py:CFSteelMember.slenderness", "metku/structures/steel/cf_steel_member.py:CFSteelMember.buckling_strength", "metku/structures/steel/cf_steel_member.py:CFSteelMember.Sreq"]}
{"id": "C320", "title": "Average yield strength of cold-formed sections", "statement": "The average yield strength lies between the basic strength and the mean of basic and ultimate strength and follows (3.1) with the number of bends of the section.", "quantifier": "for all dimensions and strengths, with and without lips", "why_tests_cant": "Tests use sections with two lips; the count of bends differs only for others.", "anchors": ["metku/eurocodes/en1993/en1993_1_3/cf_profs.py:ZSection.fya", "metku/eurocodes/en1993/en1993_1_3/en1993_1_3.py:fya"]}
{"id": "C321", "title": "A group of variables has one variable for each attribute", "statement": "A variable group with lists of bounds and start values (or of allowed values) of the same length as its attributes has exactly one variable for each attribute, in this order, with these bounds and this start value, for all its objects; the bounds of a discrete variable are its smallest and largest value. Lists of other lengths are refused.", "quantifier": "for all groups, objects, attributes and lists", "why_tests_cant": "The numbers of objects, attributes and values are unbounded, and a missing variable raises nothing.", "anchors": ["metku/optimization/variable_group.py:VariableGroup.__post_init__", "metku/optimization/variables.py:DiscreteVariable.__init__"]}
{"id": "C322", "title": "Variables of a group start inside their bounds", "statement": "Every variable of a group starts at a value within its bounds; an index variable starts at an index of its list.", "quantifier": "for all groups with and without given start values", "why_tests_cant": "Whether zero lies within the bounds depends on the bounds; a wrong start value only shows inside a solver.", "anchors": ["metku/optimization/variable_group.py:VariableGroup.__post_init__", "metku/optimization/variables.py:IndexVariable.__init__"]}
{"id": "C323", "title": "Groups that cannot work are refused", "statement": "A variable group is refused if one of its objects lacks one of its attributes, if bounds or allowed values are missing, and if its type is binary, boolean or unknown.", "quantifier": "for all groups and all sets of attributes of the objects", "why_tests_cant": "The check must find one missing attribute among arbitrarily many objects and attributes.", "anchors": ["metku/optimization/variable_group.py:VariableGroup.__post_init__", "metku/optimization/variable_group.py:has_attribute"]}
{"id": "C324", "title": "Substituting a variable of a group", "statement": "Substituting a value for a variable of a group gives the attribute of that variable this value (index variables: the value with this index) in all objects of the group, and changes nothing else.", "quantifier": "for all groups that can be created, all their variables, all values and all states of the structure", "why_tests_cant": "That nothing else changes is a statement about all attributes of all objects.", "anchors": ["metku/optimization/variable_group.py:VariableGroup.__post_init__", "metku/optimization/variables.py:Variable.substitute", "metku/optimization/variables.py:IndexVariable.substitute"]}
{"id": "C325", "title": "Eccentricity problem of a tubular truss", "statement": "The eccentricity problem has a variable for every K joint in the left half of the truss with the start value within the bounds; its gap constraints hold exactly for the gaps that the rules for K joints and the smallest gap admit; the objective is never negative, zero exactly without eccentricities, and the gradient given to the solver is its gradient.", "quantifier": "for all trusses, all positions of the joints, all values of the variables", "why_tests_cant": "The gradient and the equivalence are statements about all points of the design space.", "anchors": ["metku/raami/raami_truss_opt.py:minimize_eccentricity"]}
{"id": "C326", "title": "Vertical braces stay vertical", "statement": "In the eccentricity problem of a tubular truss the constraint of a vertical brace holds exactly if the brace is vertical after the brace intersections are moved.", "quantifier": "for all trusses, all vertical braces, all values of the variables", "why_tests_cant": "The moved points depend on the slopes of both chords and on four variables.", "anchors": ["metku/raami/raami_truss_opt.py:minimize_eccentricity", "metku/raami/raami_plane_truss.py:TubularKGapJoint.yloc", "metku/raami/raami_plane_truss.py:TubularKGapJoint.xloc"]}
{"id": "C327", "title": "The ant colony runs to its end", "statement": "A search with at least as many ants as are rewarded, positive areas, lengths, densities and fitness values and random choices within the list never raises: it starts with the same positive pheromone everywhere, keeps all pheromones positive and returns a design. A structure may have as many members as it likes.", "quantifier": "for all problems, parameters, numbers of iterations and outcomes of the random choices", "why_tests_cant": "Runs have unbounded length and every iteration depends on random choices.", "anchors": ["metku/optimization/solvers/aco.py:AntColonyOptimizer.solve", "metku/optimization/solvers/aco.py:AntColonyOptimizer.initialize", "metku/optimization/solvers/aco.py:AntColonyOptimizer.initialize_heuristic_matrix", "metku/optimization/solvers/aco.py:Ant.choose_design_variables"]}
{"id": "C328", "title": "The ant colony chooses for each variable one of its own values", "statement": "Every design the ant colony evaluates has one value for each member, taken from the list of the corresponding variable.", "quantifier": "for all problems, lists of values, numbers of iterations and outcomes of the random choices", "why_tests_cant": "The designs depend on random choices; problems in which all lists are equal cannot show the fault.", "anchors": ["metku/optimization/solvers/aco.py:AntColonyOptimizer.initialize", "metku/optimization/solvers/aco.py:Ant.choose_design_variables"]}
{"id": "C329", "title": "The ant colony stops early only after iterations without improvement", "statement": "The number of iterations is at most the given one. If the search stops earlier, exactly the last nmax + 1 iterations brought no improvement: the returned design was found before them and none of their designs is better.", "quantifier": "for all problems, parameters, limits and outcomes of the random choices", "why_tests_cant": "The stop depends on the whole history of a random run.", "anchors": ["metku/optimization/solvers/aco.py:AntColonyOptimizer.solve"]}
{"id": "C330", "title": "Adding variables to a problem", "statement": "Adding an unlocked variable to a problem, in any of the ways the problem offers, makes it a variable of the problem behind the others, once, and changes no other variable; assigning a list of variables makes exactly its unlocked variables the variables of the problem, in this order.", "quantifier": "for all problems, variables and lists of variables", "why_tests_cant": "A variable that is silently not added raises nothing.", "anchors": ["metku/optimization/structopt.py:OptimizationProblem.add", "metku/optimization/structopt.py:OptimizationProblem.vars", "metku/optimization/structopt.py:OptimizationProblem.add_variable", "metku/optimization/structopt.py:OptimizationProblem.add_variables"]}
{"id": "C331", "title": "The three bar truss with areas from a list accepts areas", "statement": "Substituted areas are brought between the smallest and largest area of the list; areas of the list are kept.", "quantifier": "for all lists of areas and all values", "why_tests_cant": "All values and lists.", "anchors": ["metku/optimization/benchmarks/three_bar_truss.py:ThreeBarTruss.create_structure", "metku/optimization/variables.py:DiscreteVariable.__init__", "metku/optimization/structopt.py:OptimizationProblem.substitute_variables"]}
{"id": "C332", "title": "Constraints of the ten bar truss", "statement": "A design of the ten bar truss satisfies all constraints exactly if the stress of every bar is at most the strength in absolute value and every vertical displacement at a bar is at most the limit in absolute value.", "quantifier": "for all forces, areas, strengths, displacements, limits and numbers of bars", "why_tests_cant": "Equivalence over all forces and displacements of either sign.", "anchors": ["metku/optimization/benchmarks/ten_bar_truss.py:TenBarTruss.create_constraints", "metku/optimization/benchmarks/ten_bar_truss.py:TenBarTruss.constraint_generator"]}
{"id": "C333", "title": "Two formulations of the ten bar truss agree", "statement": "The two ten bar problems give the same design vector the same weight and the same feasibility.", "quantifier": "for all design vectors, spans, densities, forces and displacements", "why_tests_cant": "They agree whenever the permuted bars have equal areas and sideways displacements are small.", "anchors": ["metku/optimization/benchmarks/simple_ten_bar_truss.py:SimpleTenBarTruss.create_structure", "metku/optimization/benchmarks/simple_ten_bar_truss.py:SimpleTenBarTruss.create_constraints", "metku/optimization/benchmarks/ten_bar_truss.py:TenBarTruss._create_structure"]}
{"id": "C334", "title": "Constraints of the three and fifteen bar trusses", "statement": "A design of the three bar truss satisfies all constraints exactly if no axial force exceeds the resistance in absolute value and no compression exceeds 100 E A²/(8 L²); for the fifteen bar truss exactly if no axial force exceeds the resistance. A constraint named after compression is violated by bars compressed beyond their resistance.", "quantifier": "for all forces, resistances, areas, lengths and numbers of bars", "why_tests_cant": "Equivalence over all forces of either sign; whether the design is feasible does not show a wrong name.", "anchors": ["metku/optimization/benchmarks/three_bar_truss.py:ThreeBarTruss.constraint_generator", "metku/optimization/benchmarks/three_bar_truss.py:ThreeBarTruss.create_constraints", "metku/optimization/benchmarks/fifteen_bar_truss.py:FifteenBarTruss.create_constraints"]}
{"id": "C335", "title": "Weights of the benchmark trusses", "statement": "The objective of the ten bar truss is density times span times the sum of six areas plus √2 times the sum of the four areas of the diagonals; that of every three bar truss problem is density times span times (2√2 A1 + A2).", "quantifier": "for all areas, densities and spans", "why_tests_cant": "All areas; a bar left out changes no feasibility.", "anchors": ["metku/optimization/benchmarks/ten_bar_truss.py:TenBarTruss.create_objective", "metku/optimization/benchmarks/three_bar_truss.py:ThreeBarTruss.create_objective", "metku/optimization/benchmarks/benchmark_trusses.py:ThreeBarTruss.create_objective"]}
{"id": "C336", "title": "Every bar of the older three bar problem is checked", "statement": "The stress and buckling constraints of the three bar problem in the collection of benchmarks depend on the force, strength and length of their own bar.", "quantifier": "for all bars and areas", "why_tests_cant": "With equal bars the fault does not show.", "anchors": ["metku/optimization/benchmarks/benchmark_trusses.py:ThreeBarTruss.create_constraints"]}
{"id": "C337", "title": "Binary variables of the three bar truss choose one area", "statement": "Zeros and ones satisfy the constraints on the binary variables exactly if for each area exactly one list entry is chosen and the area is this entry.", "quantifier": "for all lists of areas, areas and binary values", "why_tests_cant": "The number of combinations of binary values grows exponentially with the list.", "anchors": ["metku/optimization/benchmarks/three_bar_truss.py:ThreeBarTruss.binary_constraints", "metku/optimization/constraints.py:LinearConstraint.__call__"]}
{"id": "C338", "title": "Geometry of the fifty-two bar truss", "statement": "Node i lies in column i mod 4 and storey i div 4. Every storey has four vertical, six diagonal and three horizontal bars, all different, that join nodes of the same column, of neighbouring columns in successive storeys, and of neighbouring columns in the upper storey.", "quantifier": "for all spans, heights and storeys", "why_tests_cant": "All spans, heights and storeys.", "anchors": ["metku/optimization/benchmarks/fifty_two_bar_truss.py:FiftyTwoBarTruss.create_structure"]}
{"id": "C339", "title": "The fifty-two bar problem has its variables and constraints", "statement": "The problem has one variable for each group of bars, and a design satisfies all its constraints exactly if the stress of every bar of every group is at most the strength in absolute value.", "quantifier": "for all groups of bars, forces, areas and strengths", "why_tests_cant": "A problem without constraints accepts every design, so tests on feasible designs pass.", "anchors": ["metku/optimization/benchmarks/fifty_two_bar_truss.py:FiftyTwoBarTruss.create_variables", "metku/optimization/benchmarks/fifty_two_bar_truss.py:FiftyTwoBarTruss.create_constraints", "metku/optimization/structopt.py:OptimizationProblem.add_variables"]}
{"id": "C340", "title": "A simple truss has the members that were given", "statement": "A pin-jointed truss built from lists of nodes, member end nodes and profiles has one member for each pair of end nodes, numbered in the given order, joining these nodes with the profile of the same place; a node number outside the list raises IndexError. Expected as well: too few profiles or an unknown member type are reported; the code leaves the members out silently.", "quantifier": "for all numbers of nodes, member lists, profile lists and types", "why_tests_cant": "Tests build the three example trusses with matching lists; the claim is for lists of every length, and short lists and misspelt types are never tried.", "anchors": ["metku/raami/raami_simple_truss.py:SimpleTruss.__init__", "metku/raami/raami_simple_truss.py:SimpleTruss.add", "metku/frame2d/simple_truss.py:SimpleTruss.__init__"]}
{"id": "C341", "title": "A stable truss has exactly one response and its member forces balance the loads", "statement": "If no displacement with fixed supports leaves all member lengths unchanged, then for positive areas, moduli and lengths the equations of the pin-jointed truss have exactly one solution for every load; at every free node the reported axial forces balance the load, and responses of load cases can be superimposed.", "quantifier": "for all trusses in the plane, sections, lengths, supports and loads", "why_tests_cant": "Tests solve a few trusses numerically; that every stable truss is solvable and in equilibrium is a statement about all geometries and stiffnesses.", "anchors": ["metku/framefem/elements/rod.py:Rod.local_stiffness_matrix", "metku/framefem/elements/rod.py:Rod.internal_forces", "metku/framefem/framefem.py:FrameFEM.global_stiffness_matrix", "metku/framefem/framefem.py:FrameFEM.linear_statics"]}
{"id": "C342", "title": "The example trusses are statically sound", "statement": "The three bar, ten bar and fifteen bar trusses are stable for every size, so they have exactly one response for every choice of profiles with positive stiffness; the three bar truss with one load case responds with the sum of its two separate load cases, and in the ten bar truss the cut at the wall carries shear 2F and moment 3FL. Expected as well: the ten bar truss is sound for every list of profiles that is accepted; with fewer than eight profiles it is a mechanism.", "quantifier": "for all sizes, loads, positive stiffnesses and element lengths", "why_tests_cant": "Tests evaluate the default dimensions and profiles only.", "anchors": ["metku/raami/raami_simple_truss.py:three_bar_truss", "metku/raami/raami_simple_truss.py:ten_bar_truss", "metku/frame2d/simple_truss.py:fifteen_bar_truss"]}
{"id": "C343", "title": "A Vierendeel truss has the geometry that was asked for", "statement": "A Vierendeel truss with n panels has 2(n+1) nodes, at equal distances over the span on the bottom chord at the level of the origin and on the top chord one height above, n members in each chord between neighbouring nodes and n+1 posts, with a pinned support at the lower left and a sliding support at the lower right corner. Expected as well: a number of panels below one is reported, and the outline points inherited from plane trusses are corners of the truss; -1 panels give an empty truss, and the outline points lie outside the truss.", "quantifier": "for all origins, spans, heights and numbers of panels", "why_tests_cant": "Tests build one truss of one size; the positions and members are stated for every number of panels, including senseless ones.", "anchors": ["metku/raami/raami_vierendeel.py:VierendeelTruss.generate_topology", "metku/raami/raami_vierendeel.py:VierendeelTruss.generate_supports", "metku/raami/raami_plane_truss.py:PlaneTruss.xend", "metku/raami/raami_plane_truss.py:PlaneTruss.xbottom_left"]}
{"id": "C344", "title": "Joints of a Vierendeel truss", "statement": "Every node of a Vierendeel truss gets one joint with the post and the chord members that meet there (one at the corners, two elsewhere). Expected as well: the joints can be generated; the generation always raises AttributeError once the first joint is there.", "quantifier": "for all origins, spans, heights and positive numbers of panels", "why_tests_cant": "A test would see the failure for one truss; that no truss at all gets its joints, and which members the joints would have, is a claim for all sizes.", "anchors": ["metku/raami/raami_vierendeel.py:VierendeelTruss.generate_joints", "metku/raami/raami_plane_truss.py:TubularYJoint.__init__"]}
{"id": "C345", "title": "Loads and weight of a Vierendeel truss", "statement": "A uniform load on a chord acts on each member of this chord and no other, with the resultant q times span; chord point loads act on every node of the top chord (with the end value at its two ends) and on every unsupported node of the bottom chord; the three parts of the detailed weight are the weights of the top chord, bottom chord and posts and add up to the weight of all members. Expected as well: a misspelt chord is reported; it is taken as a request without loads.", "quantifier": "for all trusses with a positive number of panels, loads and member weights", "why_tests_cant": "Resultants and weights are checked for one truss at most; the claim holds for every number of panels and every weight.", "anchors": ["metku/raami/raami_vierendeel.py:VierendeelTruss.generate_uniform_load", "metku/raami/raami_vierendeel.py:VierendeelTruss.generate_chord_point_load", "metku/raami/raami_vierendeel.py:VierendeelTruss.weight_detailed"]}
{"id": "C346", "title": "Columns and truss of a portal frame fit together", "statement": "After create_truss and create_columns a portal frame has two upright columns from the ground at both ends of the span to the eaves, where the top chord begins and ends; the ridge node lies at midspan at the reported ridge height; the columns have an intermediate node at the end of the bottom chord exactly if the bottom chord reaches the columns. Expected as well: this holds when a truss is replaced, columns asked for before the truss are reported, and a truss deeper than the columns is rejected; none of these holds.", "quantifier": "for all spans, heights, truss dimensions, topologies, numbers of divisions and offsets of the bottom chord", "why_tests_cant": "Tests build one frame in the usual order; other orders of calls, replaced trusses and deep trusses are never tried.", "anchors": ["metku/raami/raami_portal_truss.py:PortalTruss.create_truss", "metku/raami/raami_portal_truss.py:PortalTruss.create_columns", "metku/raami/raami_portal_truss.py:PortalTruss.ridge_height"]}
{"id": "C347", "title": "The detailed weight of a portal frame includes its columns", "statement": "The parts that weight_detailed returns add up to the weight of the frame, columns included. The code returns only the parts of the truss, so the sum is always below the weight of the frame.", "quantifier": "for all positive column weights and all weights of the truss parts", "why_tests_cant": "The printed text shows the right total; only the returned value is wrong, for every frame.", "anchors": ["metku/raami/raami_portal_truss.py:PortalTruss.weight_detailed"]}
{"id": "C348", "title": "Every uniform load of a portal frame acts once in the analysed model", "statement": "After any sequence of uniform loads on chords and columns, each chord member and column carries in each load case the sum of the values that were asked for it. The code adds the first chord load of every load case twice: the total is the sum of the requests plus the first chord request of the load case; columns and members untouched by that first request carry exactly what was asked. A column load in a load case that no chord load has used raises KeyError.", "quantifier": "for all sequences of load requests that succeed, all members, load cases and values", "why_tests_cant": "Tests would need to read the loads of the finite element model for sequences of requests; the claim covers sequences of every length and order.", "anchors": ["metku/raami/raami_portal_truss.py:PortalTruss.generate_uniform_load", "metku/raami/raami_portal_truss.py:PortalTruss.generate_fem", "metku/raami/raami_plane_truss.py:SlopedTruss.generate_fem", "metku/raami/raami.py:Raami.add_loadcase", "metku/raami/raami.py:Raami.add_lineload"]}
{"id": "C349", "title": "The linear program of a truss describes its plastic designs", "statement": "The program built by truss_lp for a truss, load cases and stress limits has exactly these points: areas within their bounds and, for every load case, member forces that balance the loads at all unsupported nodes and lie between minus the compression limit times the area and the tension limit times the area (and within ±1e9). Its objective is the sum of member lengths times areas. Stress limits may be left out, in which case the yield strengths of the members are used.", "quantifier": "for all trusses, supports, load cases, bounds given as numbers or lists, and all points", "why_tests_cant": "the claim is an equivalence between all points of a program with as many blocks of variables as there are load cases and all states of equilibrium of an arbitrary truss; a shifted block or a wrong sign in one direction of force agrees with most sample points", "anchors": ["metku/optimization/problems/truss_optimization.py:truss_lp", "metku/framefem/framefem.py:FrameFEM.statics_matrix"]}
{"id": "C350", "title": "The linear program bounds the weight of elastic designs", "statement": "Every elastic design of a truss whose areas are within their bounds and whose stresses are within the limits in all load cases is a point of the program of truss_lp with the weight of the design, so that the best value of the program is not above the weight of any such design. Conversely, virtual displacements of the load cases that leave the supports in place, and whose elongations weighted with the stress limits add up to no more than the length for every member, bound the weight of all points of the program from below by the work of the loads.", "quantifier": "for all trusses, load cases, elastic designs and virtual displacements", "why_tests_cant": "it compares the optimum with all designs and all virtual displacements; a sample truss cannot show that no elastic design is cut off", "anchors": ["metku/optimization/problems/truss_optimization.py:truss_lp", "metku/framefem/framefem.py:FrameFEM.statics_matrix", "metku/framefem/elements/rod.py:Rod.internal_forces"]}
{"id": "C351", "title": "Scaling of a truss design", "statement": "scale_design returns the smallest multiple of the given areas that meets the bounds of the areas, the stress limits in all load cases and the displacement limits, whenever some multiple meets them; otherwise it reports that there is none.", "quantifier": "for all stable trusses, loads, limits and positive starting designs", "why_tests_cant": "minimality over all factors and validity of the result depend on how the response of an arbitrary truss changes with the scale, and on limits of both signs; sample designs inside their bounds with symmetric limits do not show the cases that fail", "anchors": ["metku/optimization/problems/truss_optimization.py:TrussOptimization.scale_design", "metku/optimization/problems/truss_optimization.py:TrussOptimization.stress_constraints", "metku/optimization/problems/truss_optimization.py:TrussOptimization.displacement_constraint", "metku/optimization/structopt.py:OptimizationProblem.substitute_variables"]}
{"id": "C352", "title": "Fully stressed design", "statement": "fsd analyses the truss for each load case with the current areas and gives every area variable the largest area needed by one of its members in the load cases, within the bounds of the variable, so that for a statically determinate truss every member is fully stressed in some load case or has its smallest area.", "quantifier": "for all trusses, groupings of members, load cases and starting areas", "why_tests_cant": "the outcome depends on which forces an iteration reads after the analysis, on the order of members in a group and on the number of load cases; a test whose members have been designed before with the same single load case sees the right areas", "anchors": ["metku/optimization/problems/truss_optimization.py:TrussOptimization.fsd", "metku/optimization/structopt.py:OptimizationProblem.fea", "metku/raami/raami.py:Raami.calculate", "metku/raami/frame_member.py:SteelFrameMember.design", "metku/structures/steel/steel_member.py:SteelMember.NEd"]}
{"id": "C353", "title": "Bolt rows of an optimized end plate keep their distances", "statement": "In every geometrically feasible design of an end-plate optimization problem for an extended end plate, adjacent tension rows are at least 2.2 hole diameters apart, the top row is clear of the tension flange (weld and washer fit between), and the other tension rows are clear of both flanges. Reported: a tension row below a shear row is kept 2.2 hole diameters below the axis of the beam instead of away from the row above it, and for a flush end plate two rows at the same height are feasible.", "quantifier": "for all joints with an extended end plate, all choices of variables, all points of the design space", "why_tests_cant": "the distances must hold at every point the optimizer may visit and for any number and type of bolt rows; the wrong cases appear only for flush plates and for shear rows between tension rows", "anchors": ["metku/optimization/problems/end_plate.py:EndPlateOpt.vertical_row_distance_constraints", "metku/optimization/problems/end_plate.py:EndPlateOpt.create_variables", "metku/optimization/problems/end_plate.py:EndPlateOpt.create_constraints"]}
{"id": "C354", "title": "The top row keeps its distance from the edge of the end plate", "statement": "If the top extension of the plate is a variable, every geometrically feasible design leaves at least 1.2 hole diameters between the top bolt row and the top edge of the plate, and the height of the plate follows the extension. Reported: with a fixed extension any feasible design remains feasible when the top row is moved onto the edge of the plate.", "quantifier": "for all joints with an extended end plate and all points of the design space", "why_tests_cant": "the failure with fixed extension is a missing constraint, visible only at points near the upper bound of the row position", "anchors": ["metku/optimization/problems/end_plate.py:EndPlateOpt.extension_edge_distance", "metku/optimization/problems/end_plate.py:EndPlateOpt.create_variables", "metku/structures/steel/end_plate_joint.py:EndPlateJoint.etop"]}
{"id": "C355", "title": "Optimized bolts sit where the design variable puts them", "statement": "Whenever the objective of an end-plate optimization problem is evaluated, the two bolts of each row are twice the value of the bolt variable apart, symmetric about the beam axis, clear of the beam web, the column fillet and the edges of the column flange; if the plate width is a variable a feasible design has the required edge distance to the plate edge. Reported: one substitution of a point places the bolts with the previous plate width, so their distance is off by the change of the width; with a fixed width the plate edge is not considered, and bolts may lie outside a plate narrower than the column flange.", "quantifier": "for all joints, all choices of variables, all points, all previous states of the joint", "why_tests_cant": "the result of a substitution depends on the state left by earlier evaluations; a test that starts from one state sees consistent values", "anchors": ["metku/optimization/problems/end_plate.py:EndPlateOpt.plate_edge_distance", "metku/structures/steel/end_plate_joint.py:EndPlateJoint.xbolts", "metku/structures/steel/end_plate_joint.py:EndPlateJoint.bp", "metku/optimization/structopt.py:OptimizationProblem.substitute_variables"]}
{"id": "C356", "title": "Evaluation of an end-plate problem does not depend on history, and starts from the given joint", "statement": "The joint that the objective sees is a function of the point only, whatever points were substituted before. With a fixed plate width, substituting the starting values of the variables returns the given joint, if its dimensions are within the bounds. Reported: with variable width the start gives the plate the width of the beam; the list of available plate thicknesses given by the user is ignored, the thickness being any number between 4 and 30 mm.", "quantifier": "for all joints, all choices of variables, all sequences of points, all lists of thicknesses", "why_tests_cant": "independence of history is a statement about all pairs of evaluation sequences", "anchors": ["metku/optimization/problems/end_plate.py:EndPlateOpt.__init__", "metku/optimization/problems/end_plate.py:EndPlateOpt.create_variables", "metku/optimization/problems/end_plate.py:EndPlateOpt.create_objective", "metku/optimization/objective.py:ObjectiveFunction.__call__"]}
{"id": "C357", "title": "Resistance and stiffness constraints of end-plate problems mean what they say", "statement": "For a joint with positive moment resistance the requested constraints are satisfied exactly when the moment is at most the moment resistance, the shear force at most the shear resistance, the (initial or secant) stiffness lies within the given percentage of the target, and the initial stiffness reaches the limit of rigid joints, each up to the tolerance of the problem; without a target no stiffness band is required. Reported: a negative moment of any size is accepted; asking for a pinned joint adds no constraint.", "quantifier": "for all combinations of requested constraints, actions, resistances, stiffnesses, targets and deviations", "why_tests_cant": "the equivalence is over real actions and resistances and all combinations of options", "anchors": ["metku/optimization/problems/end_plate.py:EndPlateOpt.moment_resistance_constraints", "metku/optimization/problems/end_plate.py:EndPlateOpt.shear_resistance_constraints", "metku/optimization/problems/end_plate.py:EndPlateOpt.stiffness_constraint", "metku/optimization/problems/end_plate.py:EndPlateOpt.rigid_joint_constraint", "metku/optimization/problems/end_plate.py:EndPlateOpt.create_constraints"]}
{"id": "C358", "title": "The forces reported for a member are the largest of its load cases", "statement": "After the load cases of a frame have been calculated, the axial force, the shear force and the bending moment reported for a member are values at ends of its elements, and no load case has a larger one; the forces recorded for a node are the forces at this node.", "quantifier": "for all frames, members, element forces and lists of load cases", "why_tests_cant": "Tests calculate one load case of one frame; that the values are extremes over every element and that later load cases overwrite earlier ones shows only over all sequences of load cases.", "anchors": ["metku/frame2d/frame2d.py:FrameMember.calc_nodal_forces", "metku/frame2d/frame2d.py:Frame2D.calculate"]}
{"id": "C359", "title": "Design forces by load case", "statement": "For every load case the design axial force, shear force and moment of a member are values at ends of its elements that are largest in magnitude.", "quantifier": "for all members and all element forces, with and without jumps between elements", "why_tests_cant": "A test compares a few members under uniform loads, where forces have no jumps; the claim ranges over all element forces.", "anchors": ["metku/frame2d/frame2d.py:FrameMember.get_absmax_force_value", "metku/frame2d/frame2d.py:FrameMember.NEd", "metku/frame2d/frame2d.py:FrameMember.VEd", "metku/frame2d/frame2d.py:FrameMember.MEd", "metku/framefem/framefem.py:Element.add_loadcase"]}
{"id": "C360", "title": "Utilization and verdict of a member", "statement": "After all load cases have been calculated, the utilization recorded for each load case is that of the member under the forces of this load case, and a member is called strong enough exactly when none of them exceeds one.", "quantifier": "for all frames, members, utilization functions and lists of load cases", "why_tests_cant": "The verdict is overwritten by each load case; which order of load cases hides an overloaded member cannot be settled by samples.", "anchors": ["metku/frame2d/frame2d.py:FrameMember.design", "metku/frame2d/frame2d.py:FrameMember.assign_forces", "metku/frame2d/frame2d.py:Frame2D.design_members"]}
{"id": "C361", "title": "Choice of a profile for a member", "statement": "Choosing a profile takes the first profile in the list of the member's family that carries the forces of all load cases, reports whether the profile changed, and reports failure when no profile is sufficient.", "quantifier": "for all members, lists of profiles, families, load cases and utilization functions", "why_tests_cant": "The choice depends on which load case was calculated last and on every profile before the chosen one; tests try a few loads with one load case.", "anchors": ["metku/frame2d/frame2d.py:FrameMember.optimum_design"]}
{"id": "C362", "title": "Choice of profiles for a whole frame", "statement": "When the search for profiles of a frame stops before its limit of iterations, every member carries the forces that the analysis with the chosen profiles gives, unless no profile of its list does.", "quantifier": "for all frames, numbers of members, analyses and lists of profiles", "why_tests_cant": "The forces depend on the profiles of all members, so a fixed point is needed; a test sees one sequence of iterations.", "anchors": ["metku/frame2d/frame2d.py:Frame2D.optimize_members"]}
{"id": "C363", "title": "Names and heights of profiles", "statement": "Giving a member the name of its own profile leaves its section as it is, a name that is not understood is refused, and after the height of a member has been set its height is the value given.", "quantifier": "for all sections of all classes, catalogues, names and heights", "why_tests_cant": "The outcome depends on the class, the catalogue and the rounding of dimensions in the name; tests use a few well-behaved profiles.", "anchors": ["metku/frame2d/frame2d.py:FrameMember.profile", "metku/frame2d/frame2d.py:FrameMember.h", "metku/sections/steel/ISection.py:ISection.__repr__", "metku/sections/steel/CHS.py:CHS.__repr__", "metku/sections/steel/RHS.py:SHS.__repr__"]}
{"id": "C364", "title": "Length and weight of a member with several spans", "statement": "The length of a member with several spans is the sum of the lengths of its spans, and its weight is the sum of their weights.", "quantifier": "for all lists of nodes and numbers of elements, areas and densities", "why_tests_cant": "For nodes on a straight line the sums agree; only a member with a bend shows the difference, and the inequality is a fact about all polylines.", "anchors": ["metku/raami/frame_member.py:MultiSpanMember.length", "metku/raami/frame_member.py:MultiSpanMember.weight", "metku/raami/frame_member.py:FrameMember.weight"]}
{"id": "C365", "title": "Points and local coordinates of a member with several spans", "statement": "The finite element model of a member with several spans starts at its first node, ends at its last node, contains all its nodes and has one more point than elements; local and global coordinates along the member are inverse to each other and 0 and 1 are its ends.", "quantifier": "for all lists of nodes, numbers of elements (one for all spans or a list) and coordinates", "why_tests_cant": "The outcome depends on the number of spans, the elements of each and the shape of the member.", "anchors": ["metku/raami/frame_member.py:MultiSpanMember.__init__", "metku/raami/frame_member.py:MultiSpanMember.calc_nodal_coordinates", "metku/raami/frame_member.py:MultiSpanMember.local_to_global", "metku/raami/frame_member.py:MultiSpanMember.global_to_local"]}
{"id": "C366", "title": "Section, buckling lengths and elements of a member with several spans", "statement": "At any time all spans of a member have the section and the buckling length factors set last for the member, and all their elements have that section; making the finite element model gives each span its number of elements, and releases exactly the hinged ends of the member.", "quantifier": "for all members and all sequences of setting the section or the factors, making and removing the finite element model", "why_tests_cant": "Stale elements appear only after particular orders of operations, of which there are unboundedly many.", "anchors": ["metku/raami/frame_member.py:MultiSpanMember.cross_section", "metku/raami/frame_member.py:MultiSpanMember.lcr", "metku/raami/frame_member.py:MultiSpanMember.generate_elements", "metku/raami/frame_member.py:MultiSpanMember.clear_fem", "metku/raami/frame_member.py:FrameMember.update_element_sections"]}
{"id": "C367", "title": "Design of a member with several spans", "statement": "The utilization of a member with several spans in a load case is the largest of its spans, it is reported adequate exactly if no load case exceeds the allowable utilization, and the choice of profiles gives it the first profile of an allowed class that reaches the required utilization in all spans and load cases, or keeps its profile if there is none.", "quantifier": "for all members, load cases, lists of profiles, classes and utilizations", "why_tests_cant": "The result depends on all spans, load cases and profiles before the chosen one; failures to find a profile are silent.", "anchors": ["metku/raami/frame_member.py:MultiSpanSteelMember.design", "metku/raami/frame_member.py:MultiSpanSteelMember.optimum_design"]}
{"id": "C368", "title": "Nodes and members in the file for Robot", "statement": "The file written for Robot describes the frame: every node added is in it once with its own number and its coordinates, and every member once between the numbers of its two nodes, with its material and section; a frame whose supports and sections the format knows is always written.", "quantifier": "for all sequences of adding nodes, members and supports, plane and space frames", "why_tests_cant": "Numbers are stored in shared node objects while the frame is built; only some orders and repetitions of additions make them collide.", "anchors": ["metku/raami/raami.py:Raami.add", "metku/raami/raami.py:Raami.to_robot", "metku/raami/frame_node.py:FrameNode"]}
{"id": "C369", "title": "Supports, releases, section names and file name in the file for Robot", "statement": "In the file for Robot each support holds exactly the directions it holds in the frame, each hinged end of a member and no other is released, sections have the names Robot knows, and the name of the file ends with .str once.", "quantifier": "for all kinds of supports, plane and space frames, hinges, profile names and file names", "why_tests_cant": "The written text is not read back; wrong directions or names appear only when the file is opened in another program.", "anchors": ["metku/raami/raami.py:Raami.to_robot", "metku/raami/frame_member.py:FrameMember.robot_releases", "metku/raami/frame_member.py:FrameMember.hinges", "metku/sections/steel/ISection.py:HEA.robot", "metku/sections/steel/RHS.py:RHS.robot"]}
{"id": "C370", "title": "Nodes, elements, sets and sections in the input file for Abaqus", "statement": "The input file for Abaqus has every node of the finite element model with its number and its coordinates in metres, every element between the numbers of its nodes except the eccentricity elements, a set and a section for every element, no line of more than sixteen numbers, and holds all nodes out of the plane that are not dependent nodes of a constraint; any frame can be exported, any number of times.", "quantifier": "for all finite element models, options and sequences of exports", "why_tests_cant": "Long sets, missing sections and options shared between calls appear only for particular sizes and sequences; the file is not read back.", "anchors": ["metku/raami/raami.py:Raami.to_abaqus", "metku/raami/exports.py:write_elset", "metku/raami/exports.py:write_nset", "metku/raami/exports.py:AbaqusOptions", "metku/raami/raami_plane_truss.py:PlaneTruss.to_abaqus"]}
{"id": "C371", "title": "Releases, supports and monitored nodes in the input file for Abaqus", "statement": "In the input file for Abaqus the sets of released ends have exactly the released elements of the listed members, every support of the frame holds the same directions in the plane, and the monitored nodes are the ones closest to the given place.", "quantifier": "for all finite element models, releases, supports and options", "why_tests_cant": "The sets depend on all elements and supports; a shifted number denotes another valid node and no test reads the file back.", "anchors": ["metku/raami/raami.py:Raami.to_abaqus", "metku/raami/exports.py:AbaqusOptions"]}
{"id": "C372", "title": "Stiffness of a bolt row from its parts", "statement": "The effective stiffness of a bolt row of an end-plate joint is that of the column web in tension, the column flange and the end plate in bending and the bolts in series, with the coefficients of EN 1993-1-8 Table 6.11 and the smallest effective length of the row alone and in any of its groups. It is below the stiffness of each part and at least a quarter of the smallest, a further group with the row never makes it stiffer, and a stiffener of the column web at the compressed flange makes the joint strictly stiffer.", "quantifier": "for all sections, plates, bolts, effective lengths and lists of groups, all joints with rows in tension", "why_tests_cant": "The minimum runs over lists of groups of any length and the comparisons hold for all dimensions; tests compare single values.", "anchors": ["metku/eurocodes/en1993/en1993_1_8/en1993_1_8.py:BoltRow.keff", "metku/eurocodes/en1993/en1993_1_8/en1993_1_8.py:BoltRow.leff_flange_group", "metku/eurocodes/en1993/en1993_1_8/en1993_1_8.py:BoltRow.Lb", "metku/eurocodes/en1993/en1993_1_8/component_method.py:column_web_tension_k", "metku/structures/steel/end_plate_joint.py:EndPlateJoint.k2"]}
