{
 "claims": [
  {
   "property": "C01",
   "status": "proved",
   "theorems": [
    "Metku.Fem.C01"
   ],
   "note": "For every node/element list and any prior numbering state. A direction not activated keeps its previous entry; it is -1 for fresh nodes."
  },
  {
   "property": "C02",
   "status": "proved",
   "theorems": [
    "Metku.Fem.C02",
    "Metku.Fem.C02_virtual_work",
    "Metku.Fem.C02_sparsity",
    "Metku.Fem.C02_no_out_of_range",
    "Metku.Fem.C02_numbers"
   ],
   "note": "Bilinear form of the assembled matrix equals the sum of element forms (energy is the special case); elements must join two different nodes. C02_numbers states which numbers an element's rows belong to."
  },
  {
   "property": "C03",
   "status": "proved",
   "theorems": [
    "Metku.Fem.C03_rod2",
    "Metku.Fem.C03_rod3",
    "Metku.Fem.C03_spring",
    "Metku.Fem.C03_beam",
    "Metku.Fem.C03_semi",
    "Metku.Fem.C03"
   ],
   "note": "Element matrices and the assembled matrix. 3D beam elements not included."
  },
  {
   "property": "C04",
   "status": "partial",
   "theorems": [
    "Metku.Fem.C04_rod",
    "Metku.Fem.C04_beam_partial",
    "Metku.Fem.C04_beam_translation",
    "Metku.Fem.C04_semi_partial",
    "Metku.Fem.C04_violation"
   ],
   "note": "Holds for translations and for rotations when the stored length equals the true length; the code rounds the length to 3 decimals, and C04_violation exhibits non-zero forces under a rigid rotation."
  },
  {
   "property": "C05",
   "status": "proved",
   "theorems": [
    "Metku.Fem.C05",
    "Metku.Fem.C05_order",
    "Metku.Fem.C05_isolation",
    "Metku.Fem.C05_inactive"
   ],
   "note": ""
  },
  {
   "property": "C06",
   "status": "partial",
   "theorems": [
    "Metku.Fem.C06_partial",
    "Metku.Fem.C06_first_partial",
    "Metku.Fem.C06_invariant",
    "Metku.Fem.C06_supported_unchanged",
    "Metku.Fem.C06_violation_default",
    "Metku.Fem.C06_violation_stale"
   ],
   "note": "support_method='REM' proved for models whose stored displacements are zero at supported dofs; the default support_method always raises (C06_violation_default); a dof supported after an analysis keeps its old displacement (C06_violation_stale)."
  },
  {
   "property": "C07",
   "status": "proved",
   "theorems": [
    "Metku.Fem.C07"
   ],
   "note": "For support_method='REM', nonsingular reduced stiffness, stored displacements zero at supports before the calls."
  },
  {
   "property": "C08",
   "status": "proved",
   "theorems": [
    "Metku.Fem.C08"
   ],
   "note": "2D bars."
  },
  {
   "property": "C09",
   "status": "partial",
   "theorems": [
    "Metku.Fem.C09_local_partial",
    "Metku.Fem.C09_global_partial",
    "Metku.Fem.C09_violation_axial",
    "Metku.Fem.C09_violation_factor"
   ],
   "note": "Proved for transverse local loads and for global loads with factor 1; axial local loads are ignored by the code and the factor is not applied consistently (violations)."
  },
  {
   "property": "C10",
   "status": "proved",
   "theorems": [
    "Metku.Fem.C10",
    "Metku.Fem.C10_hinge_defined",
    "Metku.Fem.C10_loaded"
   ],
   "note": ""
  },
  {
   "property": "C11",
   "status": "partial",
   "theorems": [
    "Metku.Fem.C11_local_partial",
    "Metku.Fem.C11_global_square",
    "Metku.Fem.C11_violation"
   ],
   "note": "Local directions proportional; global directions scale with the square of the factor."
  },
  {
   "property": "C12",
   "status": "partial",
   "theorems": [
    "Metku.Fem.C12_partial",
    "Metku.Fem.C12_last_wins",
    "Metku.Fem.C12_violation"
   ],
   "note": "Only one line load per member and case superposes; with several the last one overwrites."
  },
  {
   "property": "C13",
   "status": "partial",
   "theorems": [
    "Metku.Fem.C13_first_partial",
    "Metku.Fem.C13_partial",
    "Metku.Fem.C13_numbering_frozen",
    "Metku.Fem.C13_violation"
   ],
   "note": "Numbering is never renewed once done."
  },
  {
   "property": "C14",
   "status": "partial",
   "theorems": [
    "Metku.Fem.C14_partial",
    "Metku.Fem.C14_unit_partial",
    "Metku.Fem.C14_violation"
   ],
   "note": ""
  },
  {
   "property": "C15",
   "status": "proved",
   "theorems": [
    "Metku.Opt.C15",
    "Metku.Opt.C15_bounds",
    "Metku.Opt.C15_structure",
    "Metku.Opt.C15_total"
   ],
   "note": "Clipping, locked variables, invalidation of analyses, written structure attributes, and totality on variables as the constructors make them."
  },
  {
   "property": "C16",
   "status": "proved",
   "theorems": [
    "Metku.Opt.C16",
    "Metku.Opt.C16_closed"
   ],
   "note": "Verdict equals the conjunction over the sequentially evaluated constraints; closed form for constraints that are functions of the design vector."
  },
  {
   "property": "C17",
   "status": "proved",
   "theorems": [
    "Metku.Opt.C17_value",
    "Metku.Opt.C17_gradient",
    "Metku.Opt.C17_convex"
   ],
   "note": "Value, every partial derivative and convexity over the positive orthant, any dimension and sign pattern."
  },
  {
   "property": "C18",
   "status": "partial",
   "theorems": [
    "Metku.Opt.C18_value",
    "Metku.Opt.C18_gradient",
    "Metku.Opt.C18_grad",
    "Metku.Opt.C18_convex",
    "Metku.Opt.C18_asymptotes",
    "Metku.Opt.C18_bounds_partial",
    "Metku.Opt.C18_bounds_mu",
    "Metku.Opt.C18_violation",
    "Metku.Opt.C18_violation_first"
   ],
   "note": "Approximation and asymptotes proved for all histories; the lower sub-problem bound is strictly inside only for a nonnegative lower asymptote: with a negative one the code's abs() puts it on or beyond the asymptote (witness)."
  },
  {
   "property": "C19",
   "status": "partial",
   "theorems": [
    "Metku.Opt.C19_partial",
    "Metku.Opt.C19_total_partial",
    "Metku.Opt.C19_violated_int",
    "Metku.Opt.C19_violated_gap",
    "Metku.Opt.C19_violated_cont"
   ],
   "note": "Every successful branching partitions the allowed points and cuts off the relaxed one. Branching raises for integer variables, for values between 1e-4 and 1e-3 from an allowed one, and with continuous variables (witnesses)."
  },
  {
   "property": "C20",
   "status": "partial",
   "theorems": [
    "Metku.Opt.C20_partial",
    "Metku.Opt.C20_step",
    "Metku.Opt.C20_monotone",
    "Metku.Opt.C20_violation_start",
    "Metku.Opt.C20_violation_none",
    "Metku.Opt.C20_violation_reuse"
   ],
   "note": "Holds for the points visited by the iterations of a new solver object; fails for the starting point, when nothing admissible is visited, and on reuse (witnesses)."
  },
  {
   "property": "C21",
   "status": "partial",
   "theorems": [
    "Metku.Opt.C21_partial",
    "Metku.Opt.C21_violated_lost",
    "Metku.Opt.C21_violated_infeasible"
   ],
   "note": "Holds for every selection order with valid oracles when linear constraints are '<' or '='; false with '>' constraints (witnesses: optimum lost by tightening, infeasible incumbent accepted)."
  },
  {
   "property": "C22",
   "status": "partial",
   "theorems": [
    "Metku.Opt.C22_exact_zero",
    "Metku.Opt.C22_exact_partial",
    "Metku.Opt.C22_exterior_zero",
    "Metku.Opt.C22_exterior_partial",
    "Metku.Opt.C22_violation",
    "Metku.Opt.C22_violation_masked",
    "Metku.Opt.C22_odd_violation"
   ],
   "note": "Zero at feasible points for all types; nonnegativity fails for '>' constraints in the exact penalty and for odd exponents with equality constraints (witnesses)."
  },
  {
   "property": "C23",
   "status": "partial",
   "theorems": [
    "Metku.Opt.C23_step",
    "Metku.Opt.C23_history",
    "Metku.Opt.C23_own_partial",
    "Metku.Opt.C23_violation"
   ],
   "note": "Nonnegativity over all histories proved; the upper bound's multiplier is computed from the lower bound's (witness)."
  },
  {
   "property": "C24",
   "status": "partial",
   "theorems": [
    "Metku.Opt.C24_args",
    "Metku.Opt.C24_partial",
    "Metku.Opt.C24_violation"
   ],
   "note": "The objective function receives the right full vector and locked variables keep their values; but when a locked variable precedes a free one the free variable gets the wrong value (witness)."
  },
  {
   "property": "C25",
   "status": "proved",
   "theorems": [
    "Metku.Opt.C25_smaller",
    "Metku.Opt.C25_larger"
   ],
   "note": "Exact characterisation including the error case."
  },
  {
   "property": "C26",
   "status": "partial",
   "theorems": [
    "Metku.Opt.C26_velocity",
    "Metku.Opt.C26_bounds_partial",
    "Metku.Opt.C26_monotone",
    "Metku.Opt.C26_record",
    "Metku.Opt.C26_feasible_partial",
    "Metku.Opt.C26_personal",
    "Metku.Opt.C26_personal_own",
    "Metku.Opt.C26_start_infeasible",
    "Metku.Opt.C26_idle",
    "Metku.Opt.C26_full_run",
    "Metku.Opt.C26_violated_discrete",
    "Metku.Opt.C26_violated_gt"
   ],
   "note": "Velocity limits and monotonicity hold for all problems and random numbers; positions stay in bounds unless the problem is discrete and the first variable's values exceed another variable's bounds (witness); 'feasible' means constraint violation within tolerance only without '>' constraints (witness). Personal bests carry the values of the remembered point and are no worse than the present one; a start without a feasible particle is attracted to the least infeasible; improvements reset the count of idle iterations."
  },
  {
   "property": "C27",
   "status": "partial",
   "theorems": [
    "Metku.Opt.C27_partial",
    "Metku.Opt.C27_violated_gt",
    "Metku.Opt.C27_violated_tiny",
    "Metku.Opt.C27_violated_unbound"
   ],
   "note": "Holds for '<' and '=' rows with coefficients 0 or above 1e-9; false for '>' rows and tiny coefficients (witnesses)."
  },
  {
   "property": "C28",
   "status": "partial",
   "theorems": [
    "Metku.Opt.C28_partial",
    "Metku.Opt.C28_structure",
    "Metku.Opt.C28_violation"
   ],
   "note": "Holds for all kinds except index variables, whose stored index changes although locked (witness)."
  },
  {
   "property": "C29",
   "status": "proved",
   "theorems": [
    "Metku.Ec3.C29"
   ],
   "note": "All five rules; for combined bending and compression also monotone in the compressed part and the stress ratio."
  },
  {
   "property": "C30",
   "status": "proved",
   "theorems": [
    "Metku.Ec3.C30"
   ],
   "note": ""
  },
  {
   "property": "C31",
   "status": "partial",
   "theorems": [
    "Metku.Ec3.C31_partial",
    "Metku.Ec3.C31_violation",
    "Metku.Ec3.C31_combined_partial"
   ],
   "note": "Holds from 235 MPa on; below, epsilon is taken for a yield strength and slender parts are reported as class 1."
  },
  {
   "property": "C32",
   "status": "proved",
   "theorems": [
    "Metku.Ec3.C32",
    "Metku.Ec3.C32_curves",
    "Metku.Ec3.C32_order",
    "Metku.Ec3.C32_value"
   ],
   "note": "Exact reals; the square root's argument is shown nonnegative and the divisor nonzero."
  },
  {
   "property": "C33",
   "status": "partial",
   "theorems": [
    "Metku.Ec3.C33_range",
    "Metku.Ec3.C33_swap_partial",
    "Metku.Ec3.C33_violation"
   ],
   "note": "The range holds for all inputs; the symmetry fails when one end moment is nonzero but below the tolerance 1e-6."
  },
  {
   "property": "C34",
   "status": "partial",
   "theorems": [
    "Metku.Fire.C34_partial",
    "Metku.Fire.C34_mono_partial",
    "Metku.Fire.C34_violation",
    "Metku.Fire.C34_bolts",
    "Metku.Fire.C34_range"
   ],
   "note": "Proved for 20-100 and 200-1200 degrees and for bolts 20-1000; the code raises KeyError between 100 and 200 degrees."
  },
  {
   "property": "C35",
   "status": "proved",
   "theorems": [
    "Metku.Plate.C35",
    "Metku.Plate.C35_slenderness"
   ],
   "note": "Square root over the reals."
  },
  {
   "property": "C36",
   "status": "proved",
   "theorems": [
    "Metku.Plate.C36"
   ],
   "note": ""
  },
  {
   "property": "C37",
   "status": "partial",
   "theorems": [
    "Metku.Plate.C37_partial",
    "Metku.Plate.C37_violation"
   ],
   "note": "Table values, positivity and strict monotonicity hold except for uniform compression of an outstand element with sigma1=\"support\" (23.8 instead of 0.43) and stress ratio -3 of an internal element (no value); both are the violation theorem."
  },
  {
   "property": "C38",
   "status": "partial",
   "theorems": [
    "Metku.Steel.C38_partial",
    "Metku.Steel.C38_violation"
   ],
   "note": "Edits of any length give the object of a fresh construction (C38_partial). The clause on shear areas is false: for every non-square section the stored pair does not add up to the area (C38_violation); the shear area along the width is overwritten by half the area when the dimensions are assigned at the end of the constructor."
  },
  {
   "property": "C39",
   "status": "proved",
   "theorems": [
    "Metku.Steel.C39",
    "Metku.Steel.C39_value",
    "Metku.Steel.C39_curves"
   ],
   "note": "Any member with positive data and one of the five curves (shown for every rectangular hollow and rolled I-section that fits). C39: bounds and monotonicity; C39_value: the reduction factor is the Ayrton-Perry root; C39_curves: curves of rolled sections follow Table 6.2, hollow sections use curve c."
  },
  {
   "property": "C40",
   "status": "partial",
   "theorems": [
    "Metku.Steel.C40_partial",
    "Metku.Steel.C40_factor_partial",
    "Metku.Steel.C40_lt_partial",
    "Metku.Steel.C40_violation"
   ],
   "note": "Proved for members not susceptible to lateral-torsional buckling and loaded in one plane: design is the maximum of 0 and all utilisations, the beam-column class being that for the moment of the last section, the moment factor being 0.9 with sway and that of Table B.3 otherwise; and for members susceptible to it without compression, with the lateral-torsional check. Negation: with lateral-torsional buckling, compression and bending it raises AttributeError; forces in the other plane are ignored; no sections raises ValueError."
  },
  {
   "property": "C41",
   "status": "partial",
   "theorems": [
    "Metku.Opt.C41_partial",
    "Metku.Opt.C41_violation"
   ],
   "note": "Invariant over all histories of problem-level calls; fails when a variable is locked or substituted with a value directly (witness)."
  },
  {
   "property": "C42",
   "status": "partial",
   "theorems": [
    "Metku.Opt.C42_partial",
    "Metku.Opt.C42_violation"
   ],
   "note": "Holds along every history once values and structure agree; a new problem does not write the initial values (witness)."
  },
  {
   "property": "C43",
   "status": "partial",
   "theorems": [
    "Metku.Opt.C43_partial",
    "Metku.Opt.C43_moves_free",
    "Metku.Opt.C43_affine",
    "Metku.Opt.C43_violation_gradient",
    "Metku.Opt.C43_violation_stale",
    "Metku.Opt.C43_violation_index",
    "Metku.Opt.C43_violation_locked"
   ],
   "note": "Proved for unlocked continuous/integer/boolean/discrete variables, functions of the explicit values and points inside the bounds. The code breaks the rest: zero rows for analysis-based constraints with a user gradient, stale analysis afterwards, AttributeError for index variables, misaligned linear rows with locked variables."
  },
  {
   "property": "C44",
   "status": "partial",
   "theorems": [
    "Metku.Opt.C44_violation"
   ],
   "note": "Violated: the analysis is made before the substitution (witness)."
  },
  {
   "property": "C45",
   "status": "partial",
   "theorems": [
    "Metku.Opt.C45_partial",
    "Metku.Opt.C45_first",
    "Metku.Opt.C45_violation"
   ],
   "note": "Holds while the current vector is not all zero; overwritten after the zero vector (witness)."
  },
  {
   "property": "C46",
   "status": "partial",
   "theorems": [
    "Metku.Opt.C46_con",
    "Metku.Opt.C46_var_partial",
    "Metku.Opt.C46_violation"
   ],
   "note": "Proved for all constraint types and lower bounds; fails for upper bounds because of the mixed-up multiplier (witness)."
  },
  {
   "property": "C47",
   "status": "proved",
   "theorems": [
    "Metku.Opt.C47"
   ],
   "note": "Inverse barrier, all constraint types and bounds."
  },
  {
   "property": "C48",
   "status": "partial",
   "theorems": [
    "Metku.Opt.C48_partial",
    "Metku.Opt.C48_inplace",
    "Metku.Opt.C48_violation"
   ],
   "note": "Proved for steps that assign a new array; for in-place steps the exact (wrong) history is characterised."
  },
  {
   "property": "C49",
   "status": "partial",
   "theorems": [
    "Metku.Opt.C49_partial",
    "Metku.Opt.C49_inplace",
    "Metku.Opt.C49_violation"
   ],
   "note": "Proved unless a float array is given to an in-place solver, in which case it is overwritten by the first visited point."
  },
  {
   "property": "C50",
   "status": "proved",
   "theorems": [
    "Metku.Opt.C50"
   ],
   "note": ""
  },
  {
   "property": "C51",
   "status": "partial",
   "theorems": [
    "Metku.Opt.C51_partial",
    "Metku.Opt.C26_violated_discrete",
    "Metku.Opt.C51_violated_int"
   ],
   "note": "Holds if all variables are discrete with the same values; false for integer variables and for different value sets (witnesses)."
  },
  {
   "property": "C52",
   "status": "partial",
   "theorems": [
    "Metku.Ec3.C52_partial",
    "Metku.Ec3.C52_violation"
   ],
   "note": "The code gives 0.95 / 0.90 instead of 0.4 when the midspan moment is zero."
  },
  {
   "property": "C53",
   "status": "partial",
   "theorems": [
    "Metku.Fem.C53_unloaded",
    "Metku.Fem.C53_deflection",
    "Metku.Fem.C53_rod",
    "Metku.Fem.C53_partial",
    "Metku.Fem.C09_violation_axial",
    "Metku.Fem.C11_violation",
    "Metku.Fem.C12_violation"
   ],
   "note": "Missing: local loads along the member (ignored by the code, C09_violation_axial), global loads with a factor other than 0 or 1 (C11_violation), several loads on one member (C12_violation)."
  },
  {
   "property": "C54",
   "status": "proved",
   "theorems": [
    "Metku.Fem.C54"
   ],
   "note": "For the bending part of the element matrix; stiffnesses between the hinge and rigid limits of the constructor."
  },
  {
   "property": "C55",
   "status": "proved",
   "theorems": [
    "Metku.Fem.C55_elastic",
    "Metku.Fem.C55_geometric",
    "Metku.Fem.C55_geometric_global"
   ],
   "note": "Exact reals."
  },
  {
   "property": "C56",
   "status": "partial",
   "theorems": [
    "Metku.Fire.C56_partial",
    "Metku.Fire.C56_violation"
   ],
   "note": "Proved outside the gap of C34 and below 1200 degrees; the code raises in the gap and at 1200 degrees."
  },
  {
   "property": "C57",
   "status": "partial",
   "theorems": [
    "Metku.Fire.C57_partial",
    "Metku.Fire.C57_gas",
    "Metku.Fire.C57_elongation_partial",
    "Metku.Fire.C57_elongation_violation",
    "Metku.Fire.C57_violation",
    "Metku.Fire.C57_material"
   ],
   "note": "Proved for the two built-in fire curves and positive steps, the bounds on the temperature for initial temperatures from 0 to 20 degrees and short steps. Other gas functions raise UnboundLocalError; with the standard curve a step that is not positive never ends; the elongation falls by up to 0.0000084 at 750 degrees."
  },
  {
   "property": "C58",
   "status": "partial",
   "theorems": [
    "Metku.Opt.C58",
    "Metku.Opt.C58_allowed_partial",
    "Metku.Opt.C58_violation"
   ],
   "note": "Violations: proved for all values and nonempty lists (an empty list raises ValueError). Acceptance: proved for lists, and for integers up to 100000; beyond that the relative tolerance of math.isclose accepts values up to half a unit from an integer. Lists use 0.001 for the violation and 0.0001 for acceptance."
  },
  {
   "property": "C59",
   "status": "partial",
   "theorems": [
    "Metku.Opt.C59_partial",
    "Metku.Opt.C59_step",
    "Metku.Opt.C59_violation"
   ],
   "note": "Proved for steps in place followed by clipping (base class, SLP). A solver that assigns the computed array (MMA) is not clipped by the driver; MISLP, whose clipping is commented out, is not modelled."
  },
  {
   "property": "C60",
   "status": "proved",
   "theorems": [
    "Metku.Opt.C60"
   ],
   "note": "The writing to the targets is for variables other than index, binary and section variables, with one attribute as target."
  },
  {
   "property": "C61",
   "status": "partial",
   "theorems": [
    "Metku.Ec3.C61_partial",
    "Metku.Ec3.C61_violation",
    "Metku.Ec3.C61_sum_partial",
    "Metku.Ec3.C61_sum_violation"
   ],
   "note": "In class 3 and 4 the code's kyy and kzz exceed those of the table for slenderness below 1 (safe side). The utilisation has no interaction factor for bending about the weak axis."
  },
  {
   "property": "C62",
   "status": "proved",
   "theorems": [
    "Metku.Ec3.C62_sway",
    "Metku.Ec3.C62_resistance",
    "Metku.Ec3.C62_buckling"
   ],
   "note": "For positive areas, moduli, yield strengths and critical forces, positive heights and at least one column."
  },
  {
   "property": "C63",
   "status": "partial",
   "theorems": [
    "Metku.Plate.C63_partial",
    "Metku.Plate.C63_violation",
    "Metku.Plate.C63_coefficient",
    "Metku.Plate.C63_web",
    "Metku.Plate.C63_flanges",
    "Metku.Plate.C63_eta"
   ],
   "note": "Everything but monotonicity for rigid end posts, which fails at slenderness 1.08 (jump up by 0.0011, bounded by 0.0012). The web resistance is stated for non-rigid end posts; the partial safety factor is 1.0 as in constants.py."
  },
  {
   "property": "C64",
   "status": "proved",
   "theorems": [
    "Metku.Plate.C64"
   ],
   "note": "Load types other than a, b, c leave a variable unbound in the code and are not covered."
  },
  {
   "property": "C65",
   "status": "proved",
   "theorems": [
    "Metku.Steel.C65",
    "Metku.Steel.C65_order",
    "Metku.Steel.C65_circular"
   ],
   "note": "Shapes and integrals are defined in Spec/Section.lean (slices and Lebesgue integrals). Exact real arithmetic; the shear areas are C38."
  },
  {
   "property": "C66",
   "status": "partial",
   "theorems": [
    "Metku.Steel.C66",
    "Metku.Steel.C66_order",
    "Metku.Steel.C66_violation"
   ],
   "note": "All clauses except the last hold. The painted surface is smaller than the outline by twice the web thickness for every section (C66_violation), which lowers the section factor used in fire. Torsion and warping constants are not covered."
  },
  {
   "property": "C67",
   "status": "partial",
   "theorems": [
    "Metku.Steel.C67_partial",
    "Metku.Steel.C67_rolled_partial",
    "Metku.Steel.C67_hollow_partial",
    "Metku.Steel.C67_violation",
    "Metku.Steel.C67_sign_violation"
   ],
   "note": "Limits proved for compression, bending, and (I-sections) both. Negation: any tension gives class 1; webs of hollow sections are never checked in compression and bending; the class of a symmetric I-section depends on the sign of the moment."
  },
  {
   "property": "C68",
   "status": "partial",
   "theorems": [
    "Metku.Steel.C68_partial",
    "Metku.Steel.C68_violation"
   ],
   "note": "Equivalence with axial, shear and N-M interaction proved with the web share of the y axis. Negation: no reduction for shear; ZeroDivisionError for rolled I-sections about z; wrong share (unsafe) for hollow sections about z."
  },
  {
   "property": "C69",
   "status": "proved",
   "theorems": [
    "Metku.Steel.C69",
    "Metku.Steel.C69_mcrit",
    "Metku.Steel.C69_constants"
   ],
   "note": "Both methods; critical moment with the constants E = 210000, G = 81000 the code uses."
  },
  {
   "property": "C70",
   "status": "partial",
   "theorems": [
    "Metku.Steel.C70_partial",
    "Metku.Steel.C70_violation"
   ],
   "note": "Proved when the sections added last lead to the same class. Negation with a hollow section: same forces, other order, other utilisation."
  },
  {
   "property": "C71",
   "status": "partial",
   "theorems": [
    "Metku.Steel.C71_partial",
    "Metku.Steel.C71_violation"
   ],
   "note": "Proved below the axial resistance within one class. Negation: for every profile the utilisation drops at the axial resistance."
  },
  {
   "property": "C72",
   "status": "partial",
   "theorems": [
    "Metku.Loads.C72_partial",
    "Metku.Loads.C72_single",
    "Metku.Loads.C72_defined",
    "Metku.Loads.C72_violation",
    "Metku.Loads.C72_class"
   ],
   "note": "Proved: the result is one EN 1990 combination on every line and in both directions up to rounding, and its sum of all load values is the largest; with all loads in y direction on one line, its load is the largest; a result exists with a permanent load. Violated: on a given line another combination can be larger; a suction load alone raises TypeError."
  },
  {
   "property": "C73",
   "status": "partial",
   "theorems": [
    "Metku.Loads.C73_partial",
    "Metku.Loads.C73_acc",
    "Metku.Loads.C73_violation"
   ],
   "note": "Proved for combiners with variable loads: frequent and accidental results are the combination with the largest sum of values, the quasi-permanent result is the combination, the characteristic result is one characteristic combination. Violated: the characteristic combinations are compared with psi2 instead of psi0, so a smaller one can be returned. Without variable loads only the model covers the serviceability results."
  },
  {
   "property": "C74",
   "status": "partial",
   "theorems": [
    "Metku.Loads.C74",
    "Metku.Loads.C74_reduce",
    "Metku.Loads.C74_violation",
    "Metku.Loads.C74_defaults"
   ],
   "note": "Adding and the factor of one reduction are proved for all inputs; the reduction is not idempotent (violation)."
  },
  {
   "property": "C75",
   "status": "proved",
   "theorems": [
    "Metku.Wind.C75",
    "Metku.Wind.C75_value",
    "Metku.Wind.C75_keyError"
   ],
   "note": "Exact reals."
  },
  {
   "property": "C76",
   "status": "partial",
   "theorems": [
    "Metku.Wind.C76_partial",
    "Metku.Wind.C76_violation"
   ],
   "note": "Proved for walls over 10 m2; smaller walls get zero pressure (violation)."
  },
  {
   "property": "C77",
   "status": "partial",
   "theorems": [
    "Metku.Wind.C77_partial",
    "Metku.Wind.C77_violation"
   ],
   "note": "Proved for flat roofs without parapets whose depth is at least e/2; violation: negative zone width for shallow roofs, zero pressures with parapets and on monopitch roofs."
  },
  {
   "property": "C78",
   "status": "partial",
   "theorems": [
    "Metku.Wind.C78_partial",
    "Metku.Wind.C78_violation"
   ],
   "note": "Proved for wind on the low eave from 15 degrees and on the high eave from 5 degrees; between 5 and 15 degrees the values for the low eave are extrapolated (violation)."
  },
  {
   "property": "C79",
   "status": "proved",
   "theorems": [
    "Metku.Rhs.C79",
    "Metku.Rhs.C79_value"
   ],
   "note": "The range of validity in the positivity and angle statements: width ratio at least 0.35 and chord face not beyond yield."
  },
  {
   "property": "C80",
   "status": "proved",
   "theorems": [
    "Metku.Rhs.C80",
    "Metku.Rhs.C80_method"
   ],
   "note": ""
  },
  {
   "property": "C81",
   "status": "proved",
   "theorems": [
    "Metku.Rhs.C81",
    "Metku.Rhs.C81_shear",
    "Metku.Rhs.C81_area"
   ],
   "note": "The shear resistance in the reduction of the chord is that of the section (A h / (b + h)), not of the shear area of the gap."
  },
  {
   "property": "C82",
   "status": "partial",
   "theorems": [
    "Metku.Rhs.C82_partial",
    "Metku.Rhs.C82_violation"
   ],
   "note": "Only an upper bound for chords in tension; the sign of the brace component is wrong there, chords in compression always raise AttributeError, and the tension force is reported as zero when the tension brace is listed second (violation)."
  },
  {
   "property": "C83",
   "status": "partial",
   "theorems": [
    "Metku.Rhs.C83_partial",
    "Metku.Rhs.C83_violation"
   ],
   "note": "The resistance is the smallest of the failure modes; design itself raises for every joint (the chord ratio is passed as a data type) and so does adding a plate (violation)."
  },
  {
   "property": "C84",
   "status": "partial",
   "theorems": [
    "Metku.Rhs.C84_value",
    "Metku.Rhs.C84_partial",
    "Metku.Rhs.C84_violation"
   ],
   "note": "Chord face and side wall only for chord faces not in compression: the chord stress factor is used as an exponent, so the resistance is too large whenever it is below 1, and independent of the chord force up to S355 (violation)."
  },
  {
   "property": "C85",
   "status": "partial",
   "theorems": [
    "Metku.Rhs.C85_partial",
    "Metku.Rhs.C85_violation"
   ],
   "note": "Width ratios below 0.85 and equal widths; in between the chord face resistance is taken at the actual width ratio, so the resistance is too large (violation)."
  },
  {
   "property": "C86",
   "status": "partial",
   "theorems": [
    "Metku.Rhs.C86_partial",
    "Metku.Rhs.C86_violation"
   ],
   "note": "Only for a force entered explicitly with its sign and slendernesses above 0.2; the joint stores the absolute value, so compression is treated as tension; below 0.2 the strength exceeds yield; X joints raise AttributeError under compression (violation)."
  },
  {
   "property": "C87",
   "status": "proved",
   "theorems": [
    "Metku.Rhs.C87",
    "Metku.Rhs.C87_intersect"
   ],
   "note": ""
  },
  {
   "property": "C88",
   "status": "partial",
   "theorems": [
    "Metku.Bolts.C88_partial",
    "Metku.Bolts.C88_assembly",
    "Metku.Bolts.C88_violation"
   ],
   "note": "Proved when a partially threaded bolt of the price list is long enough, with head, nut and washer of every constructed bolt. Negation: otherwise the loop reaches the key 'max' and raises TypeError, so a fully threaded bolt or the warning never occurs."
  },
  {
   "property": "C89",
   "status": "partial",
   "theorems": [
    "Metku.Bolts.C89_partial",
    "Metku.Bolts.C89_violation",
    "Metku.Bolts.C89_violation_length"
   ],
   "note": "Proved for every size for which construction succeeds, and that the setter succeeds only then. Negation: after KeyError the bolt has the new diameter with the old stress area; after TypeError it has the new size with the old length."
  },
  {
   "property": "C90",
   "status": "partial",
   "theorems": [
    "Metku.Bolts.C90_partial",
    "Metku.Bolts.C90_threads",
    "Metku.Bolts.C90_violation"
   ],
   "note": "Proved for the method. Negation for the function: the two cases are swapped."
  },
  {
   "property": "C91",
   "status": "partial",
   "theorems": [
    "Metku.Bolts.C91_partial",
    "Metku.Bolts.C91_bounds",
    "Metku.Bolts.C91_violation"
   ],
   "note": "Proved for the method. Negation for the function: the partial factor is missing."
  },
  {
   "property": "C92",
   "status": "partial",
   "theorems": [
    "Metku.Bolts.C92_partial",
    "Metku.Bolts.C92_violation"
   ],
   "note": "Proved together with the check of the tension alone. Negation: the utilisation alone accepts tension up to 1.4 times the resistance."
  },
  {
   "property": "C93",
   "status": "proved",
   "theorems": [
    "Metku.Bolts.C93"
   ],
   "note": "Formulas with the constants of the code written out."
  },
  {
   "property": "C94",
   "status": "proved",
   "theorems": [
    "Metku.Bolts.C94"
   ],
   "note": "All moment ratios and exponents not negative."
  },
  {
   "property": "C95",
   "status": "partial",
   "theorems": [
    "Metku.Bolts.C95_partial",
    "Metku.Bolts.C95_violation"
   ],
   "note": "Proved for S235, S275, S355 and S420. Negation: S460M, S460Q, S500 and S700 raise KeyError."
  },
  {
   "property": "C96",
   "status": "partial",
   "theorems": [
    "Metku.Bolts.C96_partial",
    "Metku.Bolts.C96_violation"
   ],
   "note": "Proved for 0 to 1 and 2. Negation: between 1 and 2 the factor grows, from 1.5 on above 1; outside 0 to 2 it is 0."
  },
  {
   "property": "C97",
   "status": "partial",
   "theorems": [
    "Metku.Bolts.C97_tension_partial",
    "Metku.Bolts.C97_compression_partial",
    "Metku.Bolts.C97_rule_partial",
    "Metku.Bolts.C97_violation"
   ],
   "note": "Proved for transformation parameters from 0 to 1 and for 2. Between 1 and 2 the library interpolates wrongly (see C96): between 1.5 and 2 the web in tension is given more than its effective width at yield (C97_violation, for all sections and lengths)."
  },
  {
   "property": "C98",
   "status": "proved",
   "theorems": [
    "Metku.Bolts.C98",
    "Metku.Bolts.C98_row",
    "Metku.Bolts.C98_extension",
    "Metku.Bolts.C98_group"
   ],
   "note": "T-stub, rows below and outside the tension flange of unstiffened columns, and groups."
  },
  {
   "property": "C99",
   "status": "proved",
   "theorems": [
    "Metku.Bolts.C99_flange",
    "Metku.Bolts.C99_plate"
   ],
   "note": "For any number of rows."
  },
  {
   "property": "C100",
   "status": "proved",
   "theorems": [
    "Metku.Bolts.C100",
    "Metku.Bolts.C100_compression"
   ],
   "note": "For any lists of rows and groups, overlapping or not. The total force is also bounded by the web panel, the column web in compression and the beam flange."
  },
  {
   "property": "C101",
   "status": "partial",
   "theorems": [
    "Metku.Bolts.C101_partial",
    "Metku.Bolts.C108_violation"
   ],
   "note": "Proved without groups for rows listed from the top downwards above the centre of compression. With overlapping groups it is false for some orders (C108_violation: the same groups in another order give a larger admissible moment)."
  },
  {
   "property": "C102",
   "status": "partial",
   "theorems": [
    "Metku.Bolts.C102_partial",
    "Metku.Bolts.C102_violation"
   ],
   "note": "Proved without shear rows. On a new joint each shear row counts with a force of -1 N times its lever arm (C102_violation, end_plate_joint.py 596-598, en1993_1_8.py 406)."
  },
  {
   "property": "C103",
   "status": "partial",
   "theorems": [
    "Metku.Bolts.C103_partial",
    "Metku.Bolts.C103_violation"
   ],
   "note": "Proved without stiffeners and groups. With a stiffener at the compressed flange, or one at the tension flange and a row in tension, AttributeError is raised always (C103_violation)."
  },
  {
   "property": "C104",
   "status": "partial",
   "theorems": [
    "Metku.Bolts.C104_partial",
    "Metku.Bolts.C104_violation"
   ],
   "note": "Proved for a new T-stub and just after the resistance is evaluated. After one evaluation the length stays that of the old dimensions (C104_violation, en1993_1_8.py 1257-1281)."
  },
  {
   "property": "C105",
   "status": "partial",
   "theorems": [
    "Metku.Bolts.C105_partial",
    "Metku.Bolts.C105_row",
    "Metku.Bolts.C105_violation"
   ],
   "note": "Proved for two or more rows in tension. With a single one UnboundLocalError is raised, and EndPlateJoint.keq counts shear rows (C105_violation)."
  },
  {
   "property": "C106",
   "status": "partial",
   "theorems": [
    "Metku.Bolts.C106_partial",
    "Metku.Bolts.C106_sum_partial",
    "Metku.Bolts.C106_violation"
   ],
   "note": "Proved: sum over rows, and the interaction up to 99.96 % of the tension resistance. At full tension the interaction is violated (0.286 + 1/1.4 > 1), bearing is computed but not used, and before the moment resistance is evaluated rows other than shear rows count as 0 (C106_violation)."
  },
  {
   "property": "C107",
   "status": "partial",
   "theorems": [
    "Metku.Bolts.C107_partial",
    "Metku.Bolts.C107_violation"
   ],
   "note": "Proved when the stiffeners are not stronger than the column flanges. Otherwise the bound 4 Mpl,fc lacks the division by the distance and the resistance is too large (C107_violation, end_plate_joint.py 395-412)."
  },
  {
   "property": "C108",
   "status": "partial",
   "theorems": [
    "Metku.Bolts.C108_partial",
    "Metku.Bolts.C108_violation"
   ],
   "note": "Proved for groups without common rows. For two overlapping groups the moment differs by more than 19 % (C108_violation)."
  },
  {
   "property": "C109",
   "status": "partial",
   "theorems": [
    "Metku.Bolts.C109_partial",
    "Metku.Bolts.C109_violation"
   ],
   "note": "Proved when all three lists have the same length. With the default row types no row is made and the moment resistance is 0 without an error (C109_violation, end_plate_joint.py 103-131)."
  },
  {
   "property": "C110",
   "status": "partial",
   "theorems": [
    "Metku.FinPlates.equilibrium",
    "Metku.FinPlates.C110_partial",
    "Metku.FinPlates.C110_violation"
   ],
   "note": "Proved for one column of two or more bolts and for two columns; the elastic distribution of the specification is shown to be in equilibrium with force and moment. Negation: a single bolt gets a positive resistance although it cannot balance the moment; three bolts side by side get less than the elastic group carries, as the second moment is always that of two columns."
  },
  {
   "property": "C111",
   "status": "partial",
   "theorems": [
    "Metku.FinPlates.C111_partial",
    "Metku.FinPlates.C111_violation",
    "Metku.FinPlates.C111_violation_web"
   ],
   "note": "Proved for one column of two or more bolts and for two columns with the resistance of a bolt at the edge for every bolt, and with the upper edge distance of the plate for the web as well. Negation: an inner bolt can be loaded above its resistance; the resistance of the web is the same in a beam too shallow to contain the bolts."
  },
  {
   "property": "C112",
   "status": "proved",
   "theorems": [
    "Metku.FinPlates.C112"
   ],
   "note": "For positive net sections."
  },
  {
   "property": "C113",
   "status": "proved",
   "theorems": [
    "Metku.FinPlates.C113"
   ],
   "note": "Lever arm positive; between 2.72 and 2.73 either may govern."
  },
  {
   "property": "C114",
   "status": "proved",
   "theorems": [
    "Metku.FinPlates.C114"
   ],
   "note": "The Ayrton-Perry equation for slendernesses from 0.2 on."
  },
  {
   "property": "C115",
   "status": "partial",
   "theorems": [
    "Metku.FinPlates.C115_partial",
    "Metku.FinPlates.C115_violation"
   ],
   "note": "Proved for two columns and for one column with the distance of columns zero. Negation: one column with a positive distance gets more, three or more columns get less."
  },
  {
   "property": "C116",
   "status": "partial",
   "theorems": [
    "Metku.FinPlates.C116_partial",
    "Metku.FinPlates.C116_violation"
   ],
   "note": "Exactly the checked distances. Negation: lower edge of the plate and edge of the beam are not checked, two columns at the same place pass, a single column is rejected for the unused distance of columns."
  },
  {
   "property": "C117",
   "status": "partial",
   "theorems": [
    "Metku.FinPlates.C117_partial",
    "Metku.FinPlates.C117_violation"
   ],
   "note": "Proved without vertical symmetry; with it the holes are centred, other distances stay and a second reading changes nothing. Negation: the first reading moves holes that are not centred."
  },
  {
   "property": "C118",
   "status": "partial",
   "theorems": [
    "Metku.Opt.C118_bounds",
    "Metku.Opt.C118_partial",
    "Metku.Opt.C118_violation",
    "Metku.Opt.C118_violation_zero",
    "Metku.Opt.C118_violation_mislp"
   ],
   "note": "SLP: bounds for every solver answer, move limits for the range type and for non-negative values with the relative type. Negation: with relative limits a negative variable freezes the whole design and a variable at zero stays at zero; MISLP rounds to thousandths out of the bounds. No positive theorem on the move limits of MISLP."
  },
  {
   "property": "C119",
   "status": "proved",
   "theorems": [
    "Metku.Opt.C119",
    "Metku.Opt.C119_limits",
    "Metku.Opt.C119_mislp"
   ],
   "note": "Correct LP solver; range type, non-negative move limits and a start within the bounds for the travel."
  },
  {
   "property": "C120",
   "status": "partial",
   "theorems": [
    "Metku.Opt.C120_partial",
    "Metku.Opt.C120_stuck",
    "Metku.Opt.C120_violation"
   ],
   "note": "Holds while the bound of beta is not below the violation, range type. Negation: the bound follows the last relaxation; a run from a feasible design ends at an infeasible one and stays there; an infeasible linear problem stops the design for good."
  },
  {
   "property": "C121",
   "status": "partial",
   "theorems": [
    "Metku.Opt.C121_partial",
    "Metku.Opt.C121_violation",
    "Metku.Opt.C121_mislp_partial",
    "Metku.Opt.C121_violation_mislp"
   ],
   "note": "Rows of type '<' (SLP, range type) and '<', '=' (MISLP, before rounding). Negation: SLP treats '>' and '=' as '<'; MISLP leaves '>' out."
  },
  {
   "property": "C122",
   "status": "partial",
   "theorems": [
    "Metku.Opt.C122_partial",
    "Metku.Opt.C122_violation",
    "Metku.Opt.C122_violation_binary"
   ],
   "note": "Values that are multiples of a thousandth, no binary variable in the problem. Negation: rounding to thousandths misses all other values; with a binary variable discrete variables are continuous."
  },
  {
   "property": "C123",
   "status": "partial",
   "theorems": [
    "Metku.Opt.C123_partial",
    "Metku.Opt.C123_violation"
   ],
   "note": "At least two increasing values within the bounds. Negation: a single value raises IndexError."
  },
  {
   "property": "C124",
   "status": "proved",
   "theorems": [
    "Metku.Opt.C124"
   ],
   "note": "Range type, non-negative move limits, penalty and bound of beta; start within the bounds."
  },
  {
   "property": "C125",
   "status": "partial",
   "theorems": [
    "Metku.Opt.C125_partial",
    "Metku.Opt.C125_monotone",
    "Metku.Opt.C125_violation",
    "Metku.Opt.C125_violation_endless",
    "Metku.Opt.C125_violation_value",
    "Metku.Opt.C125_violation_timeout"
   ],
   "note": "Completed runs give a feasible design below 10000, and more iterations a strictly better one. Negation: the first step may worsen a feasible start; the loop never ends once nothing is better or if all objectives are at least 10000; when time is up the pair is returned the other way round, with an unchecked design."
  },
  {
   "property": "C126",
   "status": "partial",
   "theorems": [
    "Metku.Opt.C126_partial",
    "Metku.Opt.C126_violation",
    "Metku.Opt.C126_violation_raises"
   ],
   "note": "Equal lists. Negation: the bound of the first variable is used for all: larger indices are never found, indices beyond a shorter list raise ValueError."
  },
  {
   "property": "C127",
   "status": "partial",
   "theorems": [
    "Metku.Opt.C127_partial",
    "Metku.Opt.C127_violation"
   ],
   "note": "Holds if an action is given. Negation: after unsuccessful inner searches an index variable keeps the narrowed bounds. The inner solver is any function of bounds and start."
  },
  {
   "property": "C128",
   "status": "partial",
   "theorems": [
    "Metku.Opt.C128_partial",
    "Metku.Opt.C128_violation"
   ],
   "note": "Every move is to a better design. Negation: better designs that keep the value of one variable are dropped."
  },
  {
   "property": "C129",
   "status": "partial",
   "theorems": [
    "Metku.Opt.C129_partial",
    "Metku.Opt.C129_violation",
    "Metku.Opt.C129_violation_index"
   ],
   "note": "Upper limit at least 1 (one value fewer above than below). Negation: upper limit 0 leaves the nearest value out; values of index variables are taken for positions and raise."
  },
  {
   "property": "C130",
   "status": "partial",
   "theorems": [
    "Metku.Opt.C130_partial",
    "Metku.Opt.C130_violation",
    "Metku.Opt.C130_violation_reuse"
   ],
   "note": "New object, all variables free, bounds that are multiples of a thousandth. Negation: other bounds give a value that is not the fitness of the design; a reused object returns the result of the earlier problem."
  },
  {
   "property": "C131",
   "status": "partial",
   "theorems": [
    "Metku.Opt.C131_partial",
    "Metku.Opt.C131_violation"
   ],
   "note": "Earlier runs with the same number of variables. Negation: the counter is shared by all objects; after a run with another number of variables the starting point is rotated."
  },
  {
   "property": "C132",
   "status": "proved",
   "theorems": [
    "Metku.Opt.C132"
   ],
   "note": "For every index the random number may give."
  },
  {
   "property": "C133",
   "status": "partial",
   "theorems": [
    "Metku.Opt.C133_partial",
    "Metku.Opt.C133_violation",
    "Metku.Opt.C133_violation_odd"
   ],
   "note": "The stored individual stays if the number of selected individuals is even. Negation: for odd numbers it is paired; the stored individual is an object of the list that is mutated later in the loop."
  },
  {
   "property": "C134",
   "status": "partial",
   "theorems": [
    "Metku.Opt.C134_partial",
    "Metku.Opt.C134_update",
    "Metku.Opt.C134_violation",
    "Metku.Aco.aco_local",
    "Metku.Aco.aco_update"
   ],
   "note": "Positive fitness, at least as many ants as are rewarded. Negation: with fewer ants the first iteration raises IndexError."
  },
  {
   "property": "C135",
   "status": "partial",
   "theorems": [
    "Metku.Opt.C135_partial",
    "Metku.Opt.C135_all",
    "Metku.Opt.C135_violation",
    "Metku.Aco.aco_result",
    "Metku.Aco.aco_again_viol"
   ],
   "note": "New object; with at most nmax + 1 iterations all are carried out. Negation: a reused object returns the result of the earlier problem."
  },
  {
   "property": "C136",
   "status": "partial",
   "theorems": [
    "Metku.Timber.C136_partial",
    "Metku.Timber.C136_violation"
   ],
   "note": "Zero at the start and monotone for bare sides and for every prepared protection, except at the very instant when a protection fails that chars earlier: the branch for t = t_f falls through to the formula of late times (d_char_n tests t_f < t), so the depth there exceeds that of every later time up to the middle of the next phase (C136_violation)."
  },
  {
   "property": "C137",
   "status": "partial",
   "theorems": [
    "Metku.Timber.C137_partial",
    "Metku.Timber.C137_boards",
    "Metku.Timber.C137_wood",
    "Metku.Timber.C137_violation"
   ],
   "note": "For softwood rates and protections that fail when charring starts or that meet the stated condition on the failure time; every board of the library does (C137_boards), and so does a wooden board (C137_wood). A protection with t_ch = 5 and t_f = 15 makes 30 minutes worse than no protection (C137_violation)."
  },
  {
   "property": "C138",
   "status": "partial",
   "theorems": [
    "Metku.Timber.C138_partial",
    "Metku.Timber.C138_violation"
   ],
   "note": "For protections given to the constructor; sizes later are bounded by the maximum of the size and 1e-5, because sizes are clamped there. A protection set later is never prepared, so width and depth raise TypeError from the start of charring on (C138_violation)."
  },
  {
   "property": "C139",
   "status": "partial",
   "theorems": [
    "Metku.Timber.C139_partial",
    "Metku.Timber.C139_violation",
    "Metku.Timber.C139_violation_gap"
   ],
   "note": "Rates of softwood, and of hardwood from 450 kg/m3 when asked directly. A section of a hardwood grade takes the rate of softwood (C139_violation); hardwood between 290 and 450 kg/m3 raises TypeError (C139_violation_gap) although the standard interpolates."
  },
  {
   "property": "C140",
   "status": "partial",
   "theorems": [
    "Metku.Timber.C140_partial",
    "Metku.Timber.C140_violation",
    "Metku.Timber.C140_violation_belly"
   ],
   "note": "Single tapers always, double tapers with an apex at least as deep as the ends, pitched cambered beams with the depths h0/cos(alpha) and (h0 + x_ap L tan(alpha))/cos(alpha). A double taper with a shallower apex has ends below the apex depth (C140_violation); a pitched cambered beam is deeper at its start than given (C140_violation_belly)."
  },
  {
   "property": "C141",
   "status": "partial",
   "theorems": [
    "Metku.Timber.C141_partial",
    "Metku.Timber.C141_violation",
    "Metku.Timber.C141_violation_width",
    "Metku.Timber.C141_elements"
   ],
   "note": "The small elements follow the depth at the start through any sequence of settings. The depth, area, second moments and section moduli of the beam itself do not follow it (C141_violation), and a new width does not reach the small elements (C141_violation_width). C141_elements: each element has area and second moments of the residual rectangle in its middle."
  },
  {
   "property": "C142",
   "status": "partial",
   "theorems": [
    "Metku.Timber.C142_partial",
    "Metku.Timber.C142_violation",
    "Metku.Timber.C142_violation_apex"
   ],
   "note": "Exact for single tapers and any number of elements and for double tapers with the apex between two elements, less the layer of depth lost to fire. V_tot counts the lost depth (C142_violation); with the apex inside an element the sum is too large (C142_violation_apex)."
  },
  {
   "property": "C143",
   "status": "partial",
   "theorems": [
    "Metku.Timber.C143_partial",
    "Metku.Timber.C143_violation"
   ],
   "note": "Curved beams whose upper face is at least as steep as the lower face, and all pitched curved beams. With a level upper face and a lower face of 30 degrees the depth is not symmetric (C143_violation)."
  },
  {
   "property": "C144",
   "status": "proved",
   "theorems": [
    "Metku.Timber.C144"
   ],
   "note": "Grades are any with non-negative strengths; forces are lists of the sections, not empty; tension across the grain of flat LVL raises and is left out."
  },
  {
   "property": "C145",
   "status": "partial",
   "theorems": [
    "Metku.Timber.C145_partial",
    "Metku.Timber.C145_violation",
    "Metku.Timber.C145_violation_depth"
   ],
   "note": "Bounds always; depth effect without axial force. The largest absolute axial force is taken for tension, so compression raises the bending strength of a narrow deep beam (C145_violation); with axial force and bending the factor grows when the depth reaches 150 mm (C145_violation_depth)."
  },
  {
   "property": "C146",
   "status": "partial",
   "theorems": [
    "Metku.Timber.C146_partial",
    "Metku.Timber.C146_violation",
    "Metku.Timber.C146_violation_weak"
   ],
   "note": "Axial force and shear in both directions; biaxial bending for moments that do not have opposite signs, combined checks for a moment about the weak axis that is not negative. The code does not meet the rest: moments of opposite signs cancel in the bending check (C146_violation), and a negative moment about the weak axis relieves tension and compression (C146_violation_weak)."
  },
  {
   "property": "C147",
   "status": "partial",
   "theorems": [
    "Metku.Timber.C147_partial",
    "Metku.Timber.C147_capacity",
    "Metku.Timber.C147_violation"
   ],
   "note": "All utilisations of all sections, and the stability checks given; without reduction of shear every section carries its own forces (C147_capacity). Negative torsion moments give negative utilisations, so the result is that of a member without torsion (C147_violation)."
  },
  {
   "property": "C148",
   "status": "partial",
   "theorems": [
    "Metku.Timber.C148_partial",
    "Metku.Timber.C148_violation",
    "Metku.Timber.C148_violation_turned"
   ],
   "note": "Rectangles not wider than deep; the torsion constant for the tabulated ratios. Between them, and for squares, the constant is more than one and a half times that of a thin rectangle (C148_violation; the polynomial has 0.425 where 0.0425 fits); rectangles wider than deep are rated differently from the same rectangles turned (C148_violation_turned)."
  },
  {
   "property": "C149",
   "status": "partial",
   "theorems": [
    "Metku.Timber.C149_partial",
    "Metku.Timber.C149_violation"
   ],
   "note": "Proved for beams of the same depth at both ends. The zone at the end of a beam is computed with the depth at its start, so that in a beam that is lower at its end a section in front of the zone is checked with the force of another section (C149_violation)."
  },
  {
   "property": "C150",
   "status": "partial",
   "theorems": [
    "Metku.Timber.C150_partial",
    "Metku.Timber.C150_violation"
   ],
   "note": "One section per node, and all forces when they are continuous from element to element. At a jump the force before it is in no section (C150_violation)."
  },
  {
   "property": "C151",
   "status": "partial",
   "theorems": [
    "Metku.Timber.C151_partial",
    "Metku.Timber.C151_violation"
   ],
   "note": "From the relative slenderness 0.3 on. The code does not set the reduction to one below 0.3, where the formula gives values above one: short struts are rated stronger than their section."
  },
  {
   "property": "C152",
   "status": "partial",
   "theorems": [
    "Metku.Timber.C152_partial",
    "Metku.Timber.C152_violation",
    "Metku.Timber.C152_violation_torsion"
   ],
   "note": "The reduction rises by less than 0.0003 at the slenderness 1.4, a gap of the standard itself. Between tabulated ratios of sides, and for squares, the critical stress is more than 1.2 times the one of the thin rectangle because the torsion constant falls back to 1."
  },
  {
   "property": "C153",
   "status": "partial",
   "theorems": [
    "Metku.Timber.C153_partial",
    "Metku.Timber.C153_violation"
   ],
   "note": "Generating a frame a second time appends the neighbours again: the member gets segments of length zero."
  },
  {
   "property": "C154",
   "status": "partial",
   "theorems": [
    "Metku.Timber.C154_partial",
    "Metku.Timber.C154_violation",
    "Metku.Timber.C154_violation_inner",
    "Metku.Timber.C154_violation_stale"
   ],
   "note": "The factor of columns depends on which end comes first for three combinations of supports; a column in one segment without supports raises ValueError; the factors are kept from the first call and do not follow changed supports."
  },
  {
   "property": "C155",
   "status": "partial",
   "theorems": [
    "Metku.Timber.C155_partial",
    "Metku.Timber.C155_violation",
    "Metku.Timber.C155_violation_gap"
   ],
   "note": "For members with sections at different locations and without negative moments about the weak axis. A negative moment about the weak axis relieves the strut, because only the moment about the strong axis enters with its absolute value; two supports without a section between them make the check raise ValueError."
  },
  {
   "property": "C156",
   "status": "partial",
   "theorems": [
    "Metku.Timber.C156_partial",
    "Metku.Timber.C156_violation"
   ],
   "note": "Without axial force only sagging sections are covered: the moment keeps its sign, so that hogging beams never fail. The torsion constant is that of the code (C148)."
  },
  {
   "property": "C157",
   "status": "partial",
   "theorems": [
    "Metku.Timber.C157_partial",
    "Metku.Timber.C157_violation_stiffness",
    "Metku.Timber.C157_violation_load"
   ],
   "note": "The force of the edge and of the brace are proved. The factor of the stiffness is computed and never used, and the span of the load is compared with 15 mm instead of 15 m."
  },
  {
   "property": "C158",
   "status": "partial",
   "theorems": [
    "Metku.Timber.C158_partial",
    "Metku.Timber.C158_violation"
   ],
   "note": "From the relative slenderness 0.3 on, when there are as many buckling lengths as segments. The depth about the strong axis is that at some section of the segment, and the depth of the member if it is constant; under hogging moments the code chooses the section with the smallest bending stress, because it compares signed stresses (C158_violation)."
  },
  {
   "property": "C159",
   "status": "partial",
   "theorems": [
    "Metku.Timber.C159_partial",
    "Metku.Timber.C159_violation_ridge",
    "Metku.Timber.C159_violation_bent",
    "Metku.Timber.C159_violation_side"
   ],
   "note": "proved for double tapered, pitched and curved beams and for tension across the grain everywhere, in terms of the slope of the code; false for the bending factor of curved beams with a ridge, for bent laminations and for the slope of beams with the apex out of the middle (negations proved)"
  },
  {
   "property": "C160",
   "status": "partial",
   "theorems": [
    "Metku.Timber.C160_partial",
    "Metku.Timber.C160_checks",
    "Metku.Timber.C160_violation"
   ],
   "note": "proved with a section at the apex or with the apex in the middle of its neighbours; otherwise the mean is used (negation proved)"
  },
  {
   "property": "C161",
   "status": "partial",
   "theorems": [
    "Metku.Timber.C161_partial",
    "Metku.Timber.C161_violation",
    "Metku.Timber.C161_violation_sign"
   ],
   "note": "proved for edges under compression and stresses that are not negative; false for edges under tension and for negative moments (negations proved)"
  },
  {
   "property": "C162",
   "status": "partial",
   "theorems": [
    "Metku.Timber.C162_partial",
    "Metku.Timber.C162_violation_solid",
    "Metku.Timber.C162_violation_arc"
   ],
   "note": "proved for the fifth root, double tapered beams and curved beams with a ridge; false for solid timber and for curved beams (negations proved); the volumes are arguments"
  },
  {
   "property": "C163",
   "status": "partial",
   "theorems": [
    "Metku.Timber.C163_partial",
    "Metku.Timber.C163_violation"
   ],
   "note": "proved which two sections are used; false for negative shear at the end (negation proved)"
  },
  {
   "property": "C164",
   "status": "partial",
   "theorems": [
    "Metku.Timber.C164_partial",
    "Metku.Timber.C164_violation"
   ],
   "note": "proved for a single uniform load in terms of its signed value; false for loads downwards and for several loads (negation proved)"
  },
  {
   "property": "C165",
   "status": "partial",
   "theorems": [
    "Metku.Timber.C165_partial",
    "Metku.Timber.C165_violation_single",
    "Metku.Timber.C165_violation_stale",
    "Metku.Timber.C165_violation_end",
    "Metku.Timber.C165_violation_force",
    "Metku.Timber.C165_violation_solid"
   ],
   "note": "proved for two joined nodes at least, members that end at the node, and contact lengths as in the middle of a member; false for single nodes, earlier checks, ends, members that start at the node, and solid timber (negations proved)"
  },
  {
   "property": "C166",
   "status": "partial",
   "theorems": [
    "Metku.Timber.C166_partial",
    "Metku.Timber.C166_violation"
   ],
   "note": "proved to be a ring over half the sum of the angles, which is half of the curved part (negation proved); the zone of curved beams with a ridge is not modelled"
  },
  {
   "property": "C167",
   "status": "proved",
   "theorems": [
    "Metku.Frame2D.C167"
   ],
   "note": "Exact arithmetic; the unit conversion of floats is not modelled."
  },
  {
   "property": "C168",
   "status": "proved",
   "theorems": [
    "Metku.Frame2D.C168"
   ],
   "note": "For members with different ends, as the constructor rounds them."
  },
  {
   "property": "C169",
   "status": "partial",
   "theorems": [
    "Metku.Frame2D.C169_partial",
    "Metku.Frame2D.C169_violation_bar"
   ],
   "note": "Members other than bars, whose additional points lie on them; C169_violation_bar: every bar with an inner node stops at it."
  },
  {
   "property": "C170",
   "status": "partial",
   "theorems": [
    "Metku.Frame2D.C170_partial",
    "Metku.Frame2D.C170_violation_rounded"
   ],
   "note": "Crossings with at most five decimals; C170_violation_rounded: the members of a rafter and a post have no common node."
  },
  {
   "property": "C171",
   "status": "partial",
   "theorems": [
    "Metku.Frame2D.C171_partial",
    "Metku.Frame2D.C171_violation_order",
    "Metku.Frame2D.C171_violation_rounded"
   ],
   "note": "Supports of at most three decimals added after their member; the violations show lost supports."
  },
  {
   "property": "C172",
   "status": "partial",
   "theorems": [
    "Metku.Frame2D.C172_partial",
    "Metku.Frame2D.C172_violation_dropped"
   ],
   "note": "Points of at most three decimals on a member added before; names without final digit."
  },
  {
   "property": "C173",
   "status": "partial",
   "theorems": [
    "Metku.Frame2D.C173_partial",
    "Metku.Frame2D.C173_violation_ramp",
    "Metku.Frame2D.C173_violation_factor"
   ],
   "note": "Uniform loads or equal elements, factor one."
  },
  {
   "property": "C174",
   "status": "partial",
   "theorems": [
    "Metku.Frame2D.C174_partial",
    "Metku.Frame2D.C174_violation_name"
   ],
   "note": "Names that do not end in a digit."
  },
  {
   "property": "C175",
   "status": "partial",
   "theorems": [
    "Metku.Frame2D.C175_partial",
    "Metku.Frame2D.C175_violation_tapered"
   ],
   "note": "Without tapered members."
  },
  {
   "property": "C176",
   "status": "partial",
   "theorems": [
    "Metku.Frame2D.C176_partial",
    "Metku.Frame2D.C176_violation_portal"
   ],
   "note": "Members whose points are different and have at most three decimals."
  },
  {
   "property": "C177",
   "status": "partial",
   "theorems": [
    "Metku.Frame2D.C177_partial",
    "Metku.Frame2D.C177_violation_twice"
   ],
   "note": "Nodes and elements for members as in C176; line loads are always doubled."
  },
  {
   "property": "C178",
   "status": "proved",
   "theorems": [
    "Metku.Frame2D.C178"
   ],
   "note": "Sums are exact; in the code the top of the frame is found by comparing sums of floats with a product, which may differ in the last place for lengths that are not integers."
  },
  {
   "property": "C179",
   "status": "proved",
   "theorems": [
    "Metku.Frame2D.C179"
   ],
   "note": "After the constructor has rounded the ends."
  },
  {
   "property": "C180",
   "status": "proved",
   "theorems": [
    "Metku.Frame2D.C180"
   ],
   "note": "An unknown text for the supports gives a frame without supports and no message (supportDofs is none)."
  },
  {
   "property": "C181",
   "status": "partial",
   "theorems": [
    "Metku.Frame2D.C181_partial",
    "Metku.Frame2D.C181_violation_column",
    "Metku.Frame2D.C181_violation_hinge",
    "Metku.Frame2D.C181_violation_both",
    "Metku.Frame2D.C181_violation_tapered"
   ],
   "note": "Stiffnesses of beams and hinges of other members; the violations hold for all frames."
  },
  {
   "property": "C182",
   "status": "partial",
   "theorems": [
    "Metku.Raami.C182_partial",
    "Metku.Raami.C182_violation_factor",
    "Metku.Raami.C182_violation_factor_any",
    "Metku.Raami.C182_violation_id"
   ],
   "note": "Proved for a combination with an id of its own, loads whose names do not end in a digit and whose own factor is 1. The code replaces a load's own factor (violation), and a combination that has the id of a load case erases the loads of that load case from the frame."
  },
  {
   "property": "C183",
   "status": "partial",
   "theorems": [
    "Metku.Raami.C183_partial",
    "Metku.Raami.C183_violation_other"
   ],
   "note": "Proved when nothing else happens in between. Violation: if a second combination was added in between, combining the first one again takes the second one's load names, and the second combination loses its loads."
  },
  {
   "property": "C184",
   "status": "partial",
   "theorems": [
    "Metku.Raami.C184_partial",
    "Metku.Raami.C184_violation_empty",
    "Metku.Raami.C184_violation_mixed"
   ],
   "note": "Proved for load cases that have loads, all of one known type. Violations: an empty load case takes the lead, and a load case whose first load is permanent never leads, so that the only variable action is reduced to 70 %."
  },
  {
   "property": "C185",
   "status": "partial",
   "theorems": [
    "Metku.Raami.C185_partial",
    "Metku.Raami.C185_violation_names",
    "Metku.Raami.C185_violation_defaults",
    "Metku.Raami.C185_violation_taken"
   ],
   "note": "Proved for names that differ from all others. Violation: a load whose name is taken is silently left out, e.g. a second load case with a load of the default name."
  },
  {
   "property": "C186",
   "status": "partial",
   "theorems": [
    "Metku.Raami.C186_partial",
    "Metku.Raami.C186_violation_twice"
   ],
   "note": "Proved for all programs except that ids are listed once: the first load of a new id lists its id twice."
  },
  {
   "property": "C187",
   "status": "partial",
   "theorems": [
    "Metku.Raami.C187_partial",
    "Metku.Raami.C187_partial_member",
    "Metku.Raami.C187_violation_again"
   ],
   "note": "Proved for the first call, and for repeated calls on a single member. Violation: removing self weight from the frame only resets flags, so calling it again doubles the self weight of every member."
  },
  {
   "property": "C188",
   "status": "proved",
   "theorems": [
    "Metku.Raami.C188"
   ],
   "note": "Members of the documented types with at least one element; another type gives an UnboundLocalError."
  },
  {
   "property": "C189",
   "status": "partial",
   "theorems": [
    "Metku.Raami.C189_partial",
    "Metku.Raami.C189_violation_inner",
    "Metku.Raami.C189_violation_integer",
    "Metku.Raami.C189_violation_integer_y",
    "Metku.Raami.C189_violation_plain"
   ],
   "note": "Float coordinates and members of one element; the violations hold for all other moves."
  },
  {
   "property": "C190",
   "status": "partial",
   "theorems": [
    "Metku.Raami.C190_partial",
    "Metku.Raami.C190_partial_add",
    "Metku.Raami.C190_violation_both",
    "Metku.Raami.C190_violation_shared"
   ],
   "note": "Two elements or one hinge, and own lists; both violations are proved for all such frames."
  },
  {
   "property": "C191",
   "status": "proved",
   "theorems": [
    "Metku.Raami.C191"
   ],
   "note": "Members with at least one element."
  },
  {
   "property": "C192",
   "status": "partial",
   "theorems": [
    "Metku.Raami.C192_partial",
    "Metku.Raami.C192_violation_left",
    "Metku.Raami.C192_violation_column"
   ],
   "note": "Members from left to right."
  },
  {
   "property": "C193",
   "status": "partial",
   "theorems": [
    "Metku.Raami.C193_partial",
    "Metku.Raami.C193_violation_none"
   ],
   "note": "Missing: a sign of failure when no profile suits; the last profile of the catalogue stays then. Analysis, slenderness and utilization are given functions."
  },
  {
   "property": "C194",
   "status": "partial",
   "theorems": [
    "Metku.Raami.C194_partial",
    "Metku.Raami.C194_violation_slender",
    "Metku.Raami.C194_violation_pair"
   ],
   "note": "Missing: the limit of slenderness, whose `continue` belongs to the loop over the members and has no effect, and the design of symmetry pairs of the members, which get the section only."
  },
  {
   "property": "C195",
   "status": "partial",
   "theorems": [
    "Metku.Raami.C195_partial",
    "Metku.Raami.C195_violation_groups",
    "Metku.Raami.C195_violation_none",
    "Metku.Raami.C195_violation_limit"
   ],
   "note": "Missing: groups (their changes are not counted), symmetry pairs, members that no profile suits, and searches that end after nine iterations."
  },
  {
   "property": "C196",
   "status": "partial",
   "theorems": [
    "Metku.Raami.C196_partial",
    "Metku.Raami.C196_violation"
   ],
   "note": "Missing: load cases whose smallest (largest) forces differ in sign, since absolute values are compared."
  },
  {
   "property": "C197",
   "status": "proved",
   "theorems": [
    "Metku.Raami.C197"
   ],
   "note": ""
  },
  {
   "property": "C198",
   "status": "proved",
   "theorems": [
    "Metku.Raami.C198"
   ],
   "note": ""
  },
  {
   "property": "C199",
   "status": "partial",
   "theorems": [
    "Metku.Raami.C199_partial",
    "Metku.Raami.C199_partial_mutual",
    "Metku.Raami.C199_violation_shared",
    "Metku.Raami.C199_violation_double"
   ],
   "note": "Missing: frames with nodes that have no mirror image, double members and coincident nodes."
  },
  {
   "property": "C200",
   "status": "proved",
   "theorems": [
    "Metku.WI.C200"
   ],
   "note": ""
  },
  {
   "property": "C201",
   "status": "proved",
   "theorems": [
    "Metku.WI.C201"
   ],
   "note": ""
  },
  {
   "property": "C202",
   "status": "partial",
   "theorems": [
    "Metku.WI.C202_partial",
    "Metku.WI.C202_violation"
   ],
   "note": "The painted area lacks one side of the top flange, for every section."
  },
  {
   "property": "C203",
   "status": "partial",
   "theorems": [
    "Metku.WI.C203_partial",
    "Metku.WI.C203_violation_warping",
    "Metku.WI.C203_violation_wagner"
   ],
   "note": "Everything but the warping constant of unequal flanges and the asymmetry factor zj."
  },
  {
   "property": "C204",
   "status": "partial",
   "theorems": [
    "Metku.WI.C204_partial",
    "Metku.WI.C204_violation"
   ],
   "note": "Dimensions and section properties follow every edit; the buckling curves are those of the dimensions at construction."
  },
  {
   "property": "C205",
   "status": "partial",
   "theorems": [
    "Metku.WI.C205_partial",
    "Metku.WI.C205_violation",
    "Metku.WI.C205_violation_twice"
   ],
   "note": "Bending of a new section with equal flanges. In compression the effective area is too large by half the web for every such section, and reading it twice gives different values."
  },
  {
   "property": "C206",
   "status": "partial",
   "theorems": [
    "Metku.WI.C206_partial",
    "Metku.WI.C206_violation"
   ],
   "note": "Equal flanges. With unequal widths of the flanges the effective area for bending differs from the area although no part is slender."
  },
  {
   "property": "C207",
   "status": "partial",
   "theorems": [
    "Metku.WI.C207_partial",
    "Metku.WI.C207_violation"
   ],
   "note": "Bounds and monotonicity. The share of the web is computed with a wrong sign, so the value of EN 1993-1-1 is exceeded."
  },
  {
   "property": "C208",
   "status": "partial",
   "theorems": [
    "Metku.WI.C208_partial",
    "Metku.WI.C208_violation_bottom",
    "Metku.WI.C208_violation_sign",
    "Metku.WI.C208_violation_weld"
   ],
   "note": "Pure compression when the lower flange is not more slender than the upper one. Violations: lower flange, compression with bending, pure bending with welds above 1 mm."
  },
  {
   "property": "C209",
   "status": "partial",
   "theorems": [
    "Metku.WI.C209_partial",
    "Metku.WI.C209_violation"
   ],
   "note": "Strong axis and classes 1 to 3; the check about the weak axis always raises an exception."
  },
  {
   "property": "C210",
   "status": "partial",
   "theorems": [
    "Metku.WQ.C210_partial",
    "Metku.WQ.C210_violation",
    "Metku.WQ.C210_violation_modulus",
    "Metku.WQ.C210_violation_plastic"
   ],
   "note": "Everything but the elastic axis (one web is missing), what is computed with it, and the plastic modulus with the neutral axis in a flange."
  },
  {
   "property": "C211",
   "status": "partial",
   "theorems": [
    "Metku.WQ.C211_partial",
    "Metku.WQ.C211_violation"
   ],
   "note": "The plastic resistances and those about the axis of symmetry; the check raises a TypeError for every section."
  },
  {
   "property": "C212",
   "status": "partial",
   "theorems": [
    "Metku.Shop.C212_partial",
    "Metku.Shop.C212_violation"
   ],
   "note": "Without interest the function raises a ZeroDivisionError (C212_violation)."
  },
  {
   "property": "C213",
   "status": "proved",
   "theorems": [
    "Metku.Shop.C213"
   ],
   "note": ""
  },
  {
   "property": "C214",
   "status": "partial",
   "theorems": [
    "Metku.Shop.C214_partial",
    "Metku.Shop.C214_violation_cut",
    "Metku.Shop.C214_violation_weld"
   ],
   "note": "Proved for cuts up to 157 mm, fillet welds and butt welds from half a millimetre on; cutting plates of 157.1 mm or more and small butt welds has a negative cost."
  },
  {
   "property": "C215",
   "status": "partial",
   "theorems": [
    "Metku.Shop.C215_partial",
    "Metku.Shop.C215_violation"
   ],
   "note": "A plate of 30 mm is cheaper to cut than one of 27 mm because the fitted parabola turns (C215_violation)."
  },
  {
   "property": "C216",
   "status": "partial",
   "theorems": [
    "Metku.Shop.C216_partial",
    "Metku.Shop.C216_violation",
    "Metku.Shop.C216_violation_grade"
   ],
   "note": "The wear of the blade is divided by the sawing time (C216_violation); grades without parameters raise a KeyError (C216_violation_grade)."
  },
  {
   "property": "C217",
   "status": "proved",
   "theorems": [
    "Metku.Shop.C217"
   ],
   "note": ""
  },
  {
   "property": "C218",
   "status": "partial",
   "theorems": [
    "Metku.Shop.C218_partial",
    "Metku.Shop.C218_violation"
   ],
   "note": "Proved for plates up to 157 mm from which no weld or holes were taken away; the cost of a weld taken away stays in the cost (C218_violation)."
  },
  {
   "property": "C219",
   "status": "partial",
   "theorems": [
    "Metku.Shop.C219_partial",
    "Metku.Shop.C219_violation_price",
    "Metku.Shop.C219_violation_row"
   ],
   "note": "The price of steel given by the caller is ignored (C219_violation_price); for each row only one nut, one washer and the holes of the plate are counted (C219_violation_row)."
  },
  {
   "property": "C220",
   "status": "partial",
   "theorems": [
    "Metku.Shop.C220_partial",
    "Metku.Shop.C220_violation"
   ],
   "note": "The price of steel given by the caller is ignored (C220_violation)."
  },
  {
   "property": "C221",
   "status": "partial",
   "theorems": [
    "Metku.Truss.C221_partial",
    "Metku.Truss.C221_violation"
   ],
   "note": "A height of zero at the supports, given together with the height of the ridge, is treated as not given (violation); with zero meaning \"not given\" the relation holds for all dimensions."
  },
  {
   "property": "C222",
   "status": "partial",
   "theorems": [
    "Metku.Truss.C222_partial",
    "Metku.Truss.C222_violation_ridge",
    "Metku.Truss.C222_violation_single"
   ],
   "note": "Proved for trusses with equal halves and equal offsets and at least two divisions. With unequal halves the ridge is generated at midspan instead of at the end of the left half, and a K truss with one division has coincident bottom nodes (violations)."
  },
  {
   "property": "C223",
   "status": "partial",
   "theorems": [
    "Metku.Truss.C223_partial",
    "Metku.Truss.uneven_web_viol"
   ],
   "note": "Proved for trusses with equal halves and equal offsets and at least two divisions, including that each node is held by a brace except at open ends; unequal halves are missing. The code violates the statement for every N truss with an offset at the left end only: two nodes of the top chord share one place, a chord member has no length and two braces lie on one another (uneven_web_viol)."
  },
  {
   "property": "C224",
   "status": "partial",
   "theorems": [
    "Metku.Truss.C224_partial",
    "Metku.Truss.C224_open_ends",
    "Metku.Truss.uneven_mechanism_viol"
   ],
   "note": "Proved for trusses with equal halves, equal offsets and at least two divisions that have positive offsets or edge verticals. Without edge verticals at zero offset a mechanism exists for every such truss (C224_open_ends). Every N truss with an offset at the left end only is a mechanism too (uneven_mechanism_viol)."
  },
  {
   "property": "C225",
   "status": "partial",
   "theorems": [
    "Metku.Truss.C225_partial",
    "Metku.Truss.uneven_supports_viol"
   ],
   "note": "Proved for trusses with equal halves and equal offsets and at least two divisions. The code violates the statement for every N truss with an offset at the left end only: its supports are at different levels (uneven_supports_viol). Other unequal halves and offsets are missing."
  },
  {
   "property": "C226",
   "status": "partial",
   "theorems": [
    "Metku.Truss.C226_partial",
    "Metku.Truss.C226_uniform",
    "Metku.Truss.C226_violation_single",
    "Metku.Truss.C226_violation_double",
    "Metku.Truss.C226_violation_long"
   ],
   "note": "Uniform loads are proved for all chords. Piecewise loads agree with the zones for two boundaries when no member reaches over both. With one boundary the members in or over the zone border get no load, with three boundaries members in the third zone are loaded twice, and a member over two boundaries keeps the value of the middle zone beyond the second (violations)."
  },
  {
   "property": "C227",
   "status": "partial",
   "theorems": [
    "Metku.Truss.C227_partial",
    "Metku.Truss.C227_violation_ridge",
    "Metku.Truss.C227_violation_open"
   ],
   "note": "Proved for trusses with equal halves and equal offsets and at least two divisions; members at open ends know only one joint (C227_violation_open) and N trusses with falling diagonals have no ridge joint (C227_violation_ridge). Unequal halves are missing."
  },
  {
   "property": "C228",
   "status": "partial",
   "theorems": [
    "Metku.Truss.C228_partial",
    "Metku.Truss.C228_face",
    "Metku.Truss.C228_chord",
    "Metku.Truss.C228_side",
    "Metku.Truss.C228_violation_lean",
    "Metku.Truss.C228_violation_ridge"
   ],
   "note": "Proved when the braces lean to different sides of the perpendicular of the chord; the points at the joint and the side of the eccentricity are proved for all joints away from the ridge. If both braces lean to the same side the reported gap is too large, and at the ridge mirrored braces get different angles (violations)."
  },
  {
   "property": "C229",
   "status": "partial",
   "theorems": [
    "Metku.Truss.C229_partial",
    "Metku.Truss.C229_violation_ridge"
   ],
   "note": "Proved for all sequences of assignments at joints away from the ridge. At the ridge, assigning to the coordinate along a sloping chord the value it already has moves the joint off the vertical (violation)."
  },
  {
   "property": "C230",
   "status": "partial",
   "theorems": [
    "Metku.Truss.C230_partial",
    "Metku.Truss.C230_violation_stress",
    "Metku.Truss.C230_violation_wide"
   ],
   "note": "Proved for narrow braces on a chord without compression. Under compression the chord stress factor is an exponent, so the utilisation is too small; wide braces raise TypeError (violations)."
  },
  {
   "property": "C231",
   "status": "partial",
   "theorems": [
    "Metku.Truss.C231_partial",
    "Metku.Truss.C231_violation_lost",
    "Metku.Truss.C231_violation_raises"
   ],
   "note": "Proved for the failure modes of braces with the chord force the code uses. Shear in the gap and the larger chord force have no influence, and joints without exactly one gap element or with one chord member raise (violations)."
  },
  {
   "property": "C232",
   "status": "partial",
   "theorems": [
    "Metku.Shop.C232_partial",
    "Metku.Shop.C232_violation"
   ],
   "note": "Proved for braces of S235, S355 and S420. Braces of S275, S460M or S460Q, and joints of S460M, S460Q, S500 or S700 raise KeyError (violation)."
  },
  {
   "property": "C233",
   "status": "partial",
   "theorems": [
    "Metku.Shop.C233_partial",
    "Metku.Shop.C233_violation"
   ],
   "note": "Proved for S235 to S420; the other steels have no weld size and raise KeyError (violation)."
  },
  {
   "property": "C234",
   "status": "proved",
   "theorems": [
    "Metku.Shop.C234"
   ],
   "note": ""
  },
  {
   "property": "C235",
   "status": "partial",
   "theorems": [
    "Metku.Fem.C235_partial",
    "Metku.Fem.C235_rounded_partial",
    "Metku.Fem.C235_default",
    "Metku.Fem.C235_plane_partial",
    "Metku.Fem.C235_violation_plane"
   ],
   "note": "Right-handed orthonormal axes are proved when the length used is the distance of the nodes. Element.length rounds to three decimals; then the triple is orthonormal exactly when rounding did not change the length. \"In the plane case the local and global y axes coincide\" fails for members in negative x and columns drawn upwards."
  },
  {
   "property": "C236",
   "status": "partial",
   "theorems": [
    "Metku.Fem.C236_symm",
    "Metku.Fem.C236_energy",
    "Metku.Fem.C236_psd",
    "Metku.Fem.C236_global_partial",
    "Metku.Fem.C236_violation_section"
   ],
   "note": "Proved for the local matrix; in global axes when the length used is exact (the code rounds it to three decimals). With BeamSection, the section class of the package, the matrix cannot be formed: the torsion constant is read under another name."
  },
  {
   "property": "C237",
   "status": "partial",
   "theorems": [
    "Metku.Fem.C237_y_partial",
    "Metku.Fem.C237_violation_z",
    "Metku.Fem.C237_violation_xg"
   ],
   "note": "Holds for loads along the local y axis. Along local z the moments have the wrong sign, loads along the member give no nodal loads and loads in global axes raise."
  },
  {
   "property": "C238",
   "status": "partial",
   "theorems": [
    "Metku.Fem.C238_partial",
    "Metku.Fem.C238_displacements",
    "Metku.Fem.C238_success_partial",
    "Metku.Fem.C238_violation",
    "Metku.Fem.C238_violation_lines"
   ],
   "note": "Holds for models of bars and plane beams with line loads on plane beams. Springs, beams with semi-rigid ends and beams in space always make the analysis raise TypeError after the displacements have been found, and so does any line load on another element than a plane beam. Supports are treated by removing rows."
  },
  {
   "property": "C239",
   "status": "partial",
   "theorems": [
    "Metku.Fem.C239_partial",
    "Metku.Fem.C239_deflection",
    "Metku.Fem.C239_below_buckling",
    "Metku.Fem.C239_releases_partial",
    "Metku.Fem.C239_violation_tension",
    "Metku.Fem.C239_violation_hinges"
   ],
   "note": "Holds in compression, with and without releases. In tension the first-order matrix is used (no tension stiffening) and members in tension with releases raise LinAlgError because the condensation is applied twice."
  },
  {
   "property": "C240",
   "status": "partial",
   "theorems": [
    "Metku.Fem.C240_partial",
    "Metku.Fem.C240_deflection",
    "Metku.Fem.C240_tension",
    "Metku.Fem.C240_violation_local",
    "Metku.Fem.C240_violation_triangle",
    "Metku.Fem.C240_violation_section"
   ],
   "note": "Holds in compression for uniform loads in global axes with factor 1. Loads in local axes get moments of the wrong sign and size, varying intensities are replaced by the first one, tension uses the linear loads, and BeamSection has no modulus of elasticity (AttributeError)."
  },
  {
   "property": "C241",
   "status": "partial",
   "theorems": [
    "Metku.Fem.C241_partial",
    "Metku.Fem.C241_violation_bars"
   ],
   "note": "For support method REM, exact arithmetic and an exact solver, from zero previous second-order displacements. Never returns when the model has a bar or any element other than a plane beam (AttributeError or TypeError)."
  },
  {
   "property": "C242",
   "status": "partial",
   "theorems": [
    "Metku.Fem.C242_partial",
    "Metku.Fem.C242_violation_bars"
   ],
   "note": "The eigenvalue solver is a parameter required to return solutions of the generalised problem. Never returns when the model contains any element that is not a plane beam."
  },
  {
   "property": "C243",
   "status": "partial",
   "theorems": [
    "Metku.Cold.C243_partial",
    "Metku.Cold.C243_constructor_partial",
    "Metku.Cold.C243_torsion",
    "Metku.Cold.C243_violation_int"
   ],
   "note": "Fails for a thickness given as an int: IndexError for every section with a wall (open_prof.py 43-51). principal_axes raises TypeError at d^2 (line 236) and is not modelled."
  },
  {
   "property": "C244",
   "status": "partial",
   "theorems": [
    "Metku.Cold.C244_partial",
    "Metku.Cold.C244_violation_torsion"
   ],
   "note": "Area, centroid, second moments, shear centre and warping constant are unchanged. The torsion constant of a section with at least two walls raises ValueError after a split, because the array of thicknesses keeps its length (open_prof.py 310, 337-340)."
  },
  {
   "property": "C245",
   "status": "partial",
   "theorems": [
    "Metku.Cold.C245_partial",
    "Metku.Cold.C245_warping_partial",
    "Metku.Cold.C245_violation_units",
    "Metku.Cold.C245_violation_plate"
   ],
   "note": "Holds when Iy*Iz - Iyz^2 > 1e-8. Otherwise the shear centre is reported as (0, 0): for every section in a large enough unit of length, and for every flat plate, whose warping constant is then positive unless it points at the origin (open_prof.py 291-296)."
  },
  {
   "property": "C246",
   "status": "partial",
   "theorems": [
    "Metku.Cold.C246_motion_partial",
    "Metku.Cold.C246_reverse_partial",
    "Metku.Cold.C246_symmetric_partial",
    "Metku.Cold.C246_reverse_seq",
    "Metku.Cold.C246_symmetric_seq",
    "Metku.Cold.C246_plate_viol"
   ],
   "note": "Area, torsion constant, centroid and second moments without conditions on the shape; shear centre and warping constant when Iy*Iz - Iyz^2 > 1e-8 (see C245). The reversal and the symmetric sections are proved for a single thickness and for one thickness per wall. The code violates the statement for every flat plate that is shifted: the shear centre stays at the origin and the warping constant changes (C246_plate_viol)."
  },
  {
   "property": "C247",
   "status": "partial",
   "theorems": [
    "Metku.Cold.C247_partial",
    "Metku.Cold.C247_violation_angle",
    "Metku.Cold.C247_violation_stiffened",
    "Metku.Cold.C247_length_partial",
    "Metku.Cold.C247_violation_length",
    "Metku.Cold.C247_flange_partial"
   ],
   "note": "Unstiffened webs: the value is never above that of the standard, and bearing length and stiffened flanges help (loads near an end and opposite forces). The code departs from the claim in three ways: the angle factor divides by 90 squared instead of squaring the quotient (a perpendicular web has 70 percent of its resistance); webs with stiffeners raise UnboundLocalError; away from the ends the resistance drops when the bearing length passes 60 thicknesses (that step is in the standard too)."
  },
  {
   "property": "C248",
   "status": "partial",
   "theorems": [
    "Metku.Cold.C248_code_partial",
    "Metku.Cold.C248_length_partial",
    "Metku.Cold.C248_shear_partial",
    "Metku.Cold.C248_position_partial",
    "Metku.Cold.C248_violation_support"
   ],
   "note": "The value is that of the standard under the default code, and all comparisons hold whenever both calls return a value (positive thickness, radius at most 100 thicknesses, bearing length of at least 10 mm where it matters). Missing: under the default code an inner support without shear forces raises UnboundLocalError and one with zero shear forces ZeroDivisionError."
  },
  {
   "property": "C249",
   "status": "partial",
   "theorems": [
    "Metku.Cold.C249_bearing",
    "Metku.Cold.C249_mono",
    "Metku.Cold.C249_shear_table",
    "Metku.Cold.C249_violation_table",
    "Metku.Cold.C249_validity_partial",
    "Metku.Cold.C249_violation_validity",
    "Metku.Cold.C249_violation_fire"
   ],
   "note": "Bearing at room temperature and the shear table are as claimed. The check of validity compares the edge distance with 1.5 mm instead of 1.5 diameters, other diameters and materials raise KeyError and UnboundLocalError, and in fire the bearing resistance of the sheet is computed from the strength of the screw."
  },
  {
   "property": "C250",
   "status": "partial",
   "theorems": [
    "Metku.Cold.C250_fya",
    "Metku.Cold.C250_distortional_partial",
    "Metku.Cold.C250_violation_distortional",
    "Metku.Cold.C250_edge",
    "Metku.Cold.C250_violation_edge",
    "Metku.Cold.C250_width_partial",
    "Metku.Cold.C250_width_shapes",
    "Metku.Cold.C250_violation_width",
    "Metku.Cold.C250_axial",
    "Metku.Cold.C250_violation_axial"
   ],
   "note": "Strength, edge stiffeners up to a ratio of 0.6, lists of corners and axial resistance are as claimed. The distortional factor exceeds 1 just above 0.65 and jumps up at 1.38 (as the formulas of the standard do), edge ratios above 0.6 raise UnboundLocalError, a single corner given as two numbers raises TypeError, and a missing keyword gives zero resistance."
  },
  {
   "property": "C251",
   "status": "partial",
   "theorems": [
    "Metku.Cold.C251_partial",
    "Metku.Cold.C251_pitch_partial",
    "Metku.Cold.C251_violation"
   ],
   "note": "Right for vertical webs only: for every other angle the web is shorter than its own rise, the area is too small and the pitch does not match."
  },
  {
   "property": "C252",
   "status": "partial",
   "theorems": [
    "Metku.Cold.C252_uplift",
    "Metku.Cold.C252_gravity_partial",
    "Metku.Cold.C252_violation_gravity"
   ],
   "note": "Uplift is as claimed. Under gravity load sheets in the negative position and thicknesses below 1 mm other than 0.75 mm raise UnboundLocalError."
  },
  {
   "property": "C253",
   "status": "partial",
   "theorems": [
    "Metku.Solve.C253_lp_partial",
    "Metku.Solve.C253_milp_partial",
    "Metku.Solve.C253_violation_nonlinear",
    "Metku.Solve.C253_violation_types",
    "Metku.Solve.C253_violation_integer",
    "Metku.Solve.C253_violation_locked",
    "Metku.Solve.C253_violation_flag"
   ],
   "note": "Proved for linear problems without locked variables, with constraint types <, > and = and continuous (MILP: also binary) variables. Outside that the claim fails, proved: nonlinear constraints are dropped silently; <= and >= are treated as equations; integer and discrete variables are relaxed; with locked variables coefficients are matched with the wrong variables; with OR-tools the solver reports infeasible whatever was found."
  },
  {
   "property": "C254",
   "status": "partial",
   "theorems": [
    "Metku.Solve.C254_slsqp",
    "Metku.Solve.C254_slsqp_complete",
    "Metku.Solve.C254_trust_partial",
    "Metku.Solve.C254_trust_complete_partial",
    "Metku.Solve.C254_violation_cobyla",
    "Metku.Solve.C254_violation_trust",
    "Metku.Solve.C254_violation_locked"
   ],
   "note": "SLSQP: proved in full. Trust region: proved without locked variables, up to the tolerance 1e-8. The claim fails, proved: COBYLA ignores the bounds; after an exception in the library the trust-region solver reports the start point with value minus infinity; its linear constraints are matched with the wrong variables when one is locked."
  },
  {
   "property": "C255",
   "status": "partial",
   "theorems": [
    "Metku.Solve.C255_descent_partial",
    "Metku.Solve.C255_violation_search"
   ],
   "note": "Proved for line searches that always succeed and never go uphill. When the line search fails the method ends in an IndexError, proved."
  },
  {
   "property": "C256",
   "status": "partial",
   "theorems": [
    "Metku.Solve.C256_history",
    "Metku.Solve.C256_optimal_partial",
    "Metku.Solve.C256_violation_upper"
   ],
   "note": "History: proved in full. Optimality: proved for problems without bounds on the variables. With an upper bound it fails, proved: the multiplier of the upper bound is computed from that of the lower bound, and min -x on [0,1] settles at 1 + 1/(4R) for every penalty factor R."
  },
  {
   "property": "C257",
   "status": "partial",
   "theorems": [
    "Metku.Solve.C257_partial",
    "Metku.Solve.C257_violation"
   ],
   "note": "Proved for the parameters of the solver. Parameters of the problem are without effect, and a grid without solver parameters raises ValueError, proved."
  },
  {
   "property": "C258",
   "status": "proved",
   "theorems": [
    "Metku.Comp.C258_creep",
    "Metku.Comp.C258_monotone"
   ],
   "note": "For 0 < h0 and 0 <= t0 <= t. Without t0 (the default) Python raises TypeError."
  },
  {
   "property": "C259",
   "status": "partial",
   "theorems": [
    "Metku.Comp.C259_partial",
    "Metku.Comp.C259_violation",
    "Metku.Comp.C259_cover",
    "Metku.Comp.C259_new"
   ],
   "note": "Area and plastic modulus are the integrals over the inside of the tube less the bars. The claim fails for the second moment of area, which is too large by r^3(pi(2c+r)+8r/3) (r inner radius, c half height between the corners), and for the horizontal cover, which reads two bar radii too large. Both are proved."
  },
  {
   "property": "C260",
   "status": "partial",
   "theorems": [
    "Metku.Comp.C260_partial",
    "Metku.Comp.C260_monotone",
    "Metku.Comp.C260_violation"
   ],
   "note": "About the major axis under compression all is proved. About the minor axis the code raises UnboundLocalError, and without axial force ZeroDivisionError (proved)."
  },
  {
   "property": "C261",
   "status": "partial",
   "theorems": [
    "Metku.Comp.C261_partial",
    "Metku.Comp.C261_violation"
   ],
   "note": "Proved when the neutral axis stays clear of the bars or lies beyond them. When the code takes all bars as stretched although two lie above the axis it returns, the forces are out of balance by 2A(2fsd-fcd) (proved)."
  },
  {
   "property": "C262",
   "status": "partial",
   "theorems": [
    "Metku.Comp.C262_partial",
    "Metku.Comp.C262_violation",
    "Metku.Comp.C262_sign"
   ],
   "note": "Proved for non-negative end moments and an axial force below critical force and plastic resistance. Above the plastic resistance the utilisation is negative, above the critical force nothing is amplified, and negative end moments are ignored or even relieve the column (proved)."
  },
  {
   "property": "C263",
   "status": "proved",
   "theorems": [
    "Metku.Comp.C263_stiffness",
    "Metku.Comp.C263_coefficient",
    "Metku.Comp.C263_creep"
   ],
   "note": "Words other than \"creep\" raise UnboundLocalError (proved)."
  },
  {
   "property": "C264",
   "status": "partial",
   "theorems": [
    "Metku.Comp.C264_partial",
    "Metku.Comp.C264_violation",
    "Metku.Comp.C264_slab"
   ],
   "note": "Proved with the neutral axis in the slab. In the steel part the formulas of flange and web are swapped: with the axis in the web the resistance is too large (proved, with the amount), in the flange too small. The slab's force has the factor 0.85 twice; welded sections with lists raise TypeError unless the axis is in the slab. The steel part is three plates without fillets."
  },
  {
   "property": "C265",
   "status": "partial",
   "theorems": [
    "Metku.Comp.C265_partial",
    "Metku.Comp.C265_violation"
   ],
   "note": "In the installed package the name of the partial factor is undefined and every call raises NameError (proved). With the name defined, the concrete term is right and the steel term is pi*gamma times too large (proved)."
  },
  {
   "property": "C266",
   "status": "partial",
   "theorems": [
    "Metku.Milp.C266_partial",
    "Metku.Milp.C266_optimum_partial",
    "Metku.Milp.C266_violation_bounds",
    "Metku.Milp.C266_violation_return"
   ],
   "note": "One load case, no scaling, displacement bounds around zero; resistances are rounded down to whole numbers. create_milp stores the problem and then raises NameError (C266_violation_return). With displacement bounds that exclude zero designs are lost (C266_violation_bounds)."
  },
  {
   "property": "C267",
   "status": "partial",
   "theorems": [
    "Metku.Milp.C267_partial",
    "Metku.Milp.C267_violation_unsafe",
    "Metku.Milp.C267_violation_lost",
    "Metku.Milp.C267_violation_displacement"
   ],
   "note": "The designs of the scaled program are given exactly. Violated: tension resistances are scaled by the square of the length factor instead of the force factor and displacement bounds are not scaled, so unsafe designs get in or all designs are lost."
  },
  {
   "property": "C268",
   "status": "partial",
   "theorems": [
    "Metku.Milp.C268_partial",
    "Metku.Milp.C268_violation"
   ],
   "note": "Strength holds in each case. Violated: all balances are on the forces of the first case, so two different cases leave no point at all."
  },
  {
   "property": "C269",
   "status": "partial",
   "theorems": [
    "Metku.Milp.C269_partial",
    "Metku.Milp.C269_violation_forced",
    "Metku.Milp.C269_violation_dangling"
   ],
   "note": "The points are characterised exactly (one case, no scaling). Violated: the first constraint is the wrong way round, so all members of the ground structure at a node that remains are forced in, and members may remain at nodes that are left out."
  },
  {
   "property": "C270",
   "status": "partial",
   "theorems": [
    "Metku.Milp.C270_partial",
    "Metku.Milp.C270_violation"
   ],
   "note": "Proved for topology. Violated for sizing: groups have no constraints there."
  },
  {
   "property": "C271",
   "status": "proved",
   "theorems": [
    "Metku.Milp.C271"
   ],
   "note": ""
  },
  {
   "property": "C272",
   "status": "partial",
   "theorems": [
    "Metku.SProb.C272_partial",
    "Metku.SProb.C272_viol",
    "Metku.SProb.C272_default_viol",
    "Metku.SProb.C272_end_viol"
   ],
   "note": "Code differs from the claim: only the first end of an element is read, and elements made by the finite element model have no axial_force, shear_force or bending_moment, so that the default constraints raise AttributeError."
  },
  {
   "property": "C273",
   "status": "partial",
   "theorems": [
    "Metku.SProb.C273_partial",
    "Metku.SProb.C273_viol",
    "Metku.SProb.C273_sign_viol"
   ],
   "note": "Code differs from the claim: lateral-torsional buckling is only checked for hollow sections, and with abs(max) of the moments, which lets negative moments pass."
  },
  {
   "property": "C274",
   "status": "partial",
   "theorems": [
    "Metku.SProb.C274_partial",
    "Metku.SProb.C274_viol",
    "Metku.SProb.C274_node_viol"
   ],
   "note": "Code differs from the claim: only the node with key 0 is read; without it the constraint raises KeyError."
  },
  {
   "property": "C275",
   "status": "partial",
   "theorems": [
    "Metku.SProb.C275_partial",
    "Metku.SProb.C275_viol",
    "Metku.SProb.C275_class1_viol",
    "Metku.SProb.C275_other_viol"
   ],
   "note": "Code differs from the claim: the class asked for is ignored (3 for I-sections, 2 for hollow ones); other sections raise UnboundLocalError. Uniform compression is assumed for the web."
  },
  {
   "property": "C276",
   "status": "partial",
   "theorems": [
    "Metku.SProb.C276_k",
    "Metku.SProb.C276_partial",
    "Metku.SProb.C277_kt_viol"
   ],
   "note": "K joints proved in full. Code differs from the claim: no upper bound of the angle of a Y joint, no constraints for KT joints."
  },
  {
   "property": "C277",
   "status": "partial",
   "theorems": [
    "Metku.SProb.C277_partial",
    "Metku.SProb.C277_y_partial",
    "Metku.SProb.C277_viol",
    "Metku.SProb.C277_kt_viol"
   ],
   "note": "Code differs from the claim: compression in the chord of K joints and chord face failure under a compressed brace of Y joints are not checked, KT joints have no constraints."
  },
  {
   "property": "C278",
   "status": "partial",
   "theorems": [
    "Metku.SProb.C278_partial",
    "Metku.SProb.C278_viol",
    "Metku.SProb.C278_alpha_viol"
   ],
   "note": "Code differs from the claim: the published key LT_buckling raises TypeError, alpha_cr has no effect."
  },
  {
   "property": "C279",
   "status": "partial",
   "theorems": [
    "Metku.SProb.C279_partial",
    "Metku.SProb.C279_one",
    "Metku.SProb.C279_viol",
    "Metku.SProb.C279_twice_viol",
    "Metku.SProb.C279_key_viol"
   ],
   "note": "Code differs from the claim: constraints are removed from the list while it is iterated, so every second one stays; new ones are made once for each object of the group, and joint constraints are repeated; a group without constraints raises KeyError."
  },
  {
   "property": "C280",
   "status": "partial",
   "theorems": [
    "Metku.SProb.C280_partial",
    "Metku.SProb.C280_viol",
    "Metku.SProb.C280_lost_viol",
    "Metku.SProb.C280_errors"
   ],
   "note": "Code differs from the claim: the default groups lack the key values (KeyError), binary groups and properties without a value are dropped silently."
  },
  {
   "property": "C281",
   "status": "partial",
   "theorems": [
    "Metku.SProb.C281_partial",
    "Metku.SProb.C281_viol",
    "Metku.SProb.C281_lost_viol",
    "Metku.SProb.C281_mix_viol"
   ],
   "note": "Code differs from the claim: variables have no attribute id (AttributeError), variables of beams are lost, and dimensions can be combined across profiles."
  },
  {
   "property": "C282",
   "status": "partial",
   "theorems": [
    "Metku.Skin.C282_partial",
    "Metku.Skin.C282_spacing_partial",
    "Metku.Skin.C282_viol",
    "Metku.Skin.C282_wide_viol",
    "Metku.Skin.C282_eccs_viol"
   ],
   "note": "Proved for fasteners in the troughs and spacings within the panel. Fails for fasteners on the crests (TypeError for every panel), for spacings wider than the panel (the strength of one fastener is taken off) and for the ECCS rule with seam fasteners of 4.8 mm (ValueError), because the strength of rafter fasteners uses the diameter of the seam fasteners."
  },
  {
   "property": "C283",
   "status": "proved",
   "theorems": [
    "Metku.Skin.C283_closed",
    "Metku.Skin.C283_table",
    "Metku.Skin.C283_mono",
    "Metku.Skin.C283_trough",
    "Metku.Skin.C283_crest"
   ],
   "note": "Closed forms for every number of fasteners; order and bounds by induction."
  },
  {
   "property": "C284",
   "status": "partial",
   "theorems": [
    "Metku.Skin.C284_partial",
    "Metku.Skin.C284_pos",
    "Metku.Skin.C284_viol",
    "Metku.Skin.C284_viol_size",
    "Metku.Skin.C284_table_viol"
   ],
   "note": "Proved for depth and top flange of at least a tenth of the pitch. A shallower sheet is given the constant of a sheet 0.8 times as deep as its pitch, for vertical webs more than twice any constant up to half the pitch. One entry of the table (vertical webs, depth 0.5, top flange 0.2) does not fit its neighbours."
  },
  {
   "property": "C285",
   "status": "partial",
   "theorems": [
    "Metku.Skin.C285_partial",
    "Metku.Skin.C285_pos_partial",
    "Metku.Skin.C285_thickness_partial",
    "Metku.Skin.C285_sheets",
    "Metku.Skin.C285_viol"
   ],
   "note": "Proved for spacings within the panel and at least one whole sheet. With edge fasteners spaced wider than the panel every panel raises ZeroDivisionError."
  },
  {
   "property": "C286",
   "status": "partial",
   "theorems": [
    "Metku.Skin.C286_partial",
    "Metku.Skin.C286_viol",
    "Metku.Skin.C286_diameter_viol"
   ],
   "note": "Only the strength of the rafter fasteners is returned; the other two methods have no return statement. The diameter of rafter fasteners is the one of the seam."
  },
  {
   "property": "C287",
   "status": "partial",
   "theorems": [
    "Metku.T2.C287_partial",
    "Metku.T2.C287_default_partial",
    "Metku.T2.C287_viol"
   ],
   "note": "Proved for trusses with a ridge for every number of webs. Violated: in a flat truss (no ridge height) with a number of webs divisible by four the last pair ends twice at the right end of the top chord."
  },
  {
   "property": "C288",
   "status": "partial",
   "theorems": [
    "Metku.T2.C288_chain",
    "Metku.T2.C288_half_partial",
    "Metku.T2.C288_viol",
    "Metku.T2.C288_even",
    "Metku.T2.C288_count_partial",
    "Metku.T2.C288_default_partial",
    "Metku.T2.C288_count_viol"
   ],
   "note": "Chain and even spacing (n = 4k+2) proved. Violated: with n = 4k and no offset of the bottom chord the last left web ends in the right half and crosses its mirror image; an odd number gives one web less."
  },
  {
   "property": "C289",
   "status": "partial",
   "theorems": [
    "Metku.T2.C289_apart",
    "Metku.T2.C289_webs",
    "Metku.T2.C289_partial",
    "Metku.T2.C289_viol"
   ],
   "note": "Proved for places that are equal or more than 0.0305 of the length apart. Violated: with 70 or more webs different panel points share a joint."
  },
  {
   "property": "C290",
   "status": "partial",
   "theorems": [
    "Metku.T2.C290_partial",
    "Metku.T2.C290_viol"
   ],
   "note": "Proved for horizontal chords, and for webs that lean like the chord. Violated: on a rising chord the angle of a web that leans the other way is too small."
  },
  {
   "property": "C291",
   "status": "proved",
   "theorems": [
    "Metku.T2.C291_gap",
    "Metku.T2.C291_ecc"
   ],
   "note": "For angles with nonzero sines, as at every K joint."
  },
  {
   "property": "C292",
   "status": "partial",
   "theorems": [
    "Metku.T2.C292_partial",
    "Metku.T2.C292_viol",
    "Metku.T2.C292_forces_partial",
    "Metku.T2.C292_forces_viol"
   ],
   "note": "Proved for one bottom chord and K joints under the ultimate limit state. Violated: only the last bottom chord counts; joints always take the forces of the ultimate limit state; joints of three webs fail."
  },
  {
   "property": "C293",
   "status": "partial",
   "theorems": [
    "Metku.T2.C293_partial",
    "Metku.T2.C293_viol",
    "Metku.T2.C293_flat_viol"
   ],
   "note": "Proved for trusses with a ridge. Violated: heights of a flat truss cannot be set, columns and trusses with a load cannot be made, chords of a flat truss with unequal halves do not end above each other."
  },
  {
   "property": "C294",
   "status": "partial",
   "theorems": [
    "Metku.T2.C294_partial",
    "Metku.T2.C294_viol"
   ],
   "note": "The sum is the distance of the first and last joint; the parts outside belong to no member."
  },
  {
   "property": "C295",
   "status": "proved",
   "theorems": [
    "Metku.Panels.C295_stiffness",
    "Metku.Panels.C295_shear",
    "Metku.Panels.C295_named"
   ],
   "note": "Names other than the one panel known end in UnboundLocalError."
  },
  {
   "property": "C296",
   "status": "proved",
   "theorems": [
    "Metku.Panels.C296_positive",
    "Metku.Panels.C296_strength",
    "Metku.Panels.C296_face"
   ],
   "note": "For positive dimensions."
  },
  {
   "property": "C297",
   "status": "partial",
   "theorems": [
    "Metku.Panels.C297_support",
    "Metku.Panels.C297_resistance",
    "Metku.Panels.C297_own_partial",
    "Metku.Panels.C297_viol"
   ],
   "note": "Violated: panels made without a list of screws share one default list."
  },
  {
   "property": "C298",
   "status": "partial",
   "theorems": [
    "Metku.Panels.C298_partial",
    "Metku.Panels.C298_layer",
    "Metku.Panels.C298_viol",
    "Metku.Panels.C298_slab_viol"
   ],
   "note": "Centroid proved for symmetric layups, stiffness of layers for all. Violated: unsymmetric layups; areas raise AttributeError; the bending stiffness of the slab is not returned."
  },
  {
   "property": "C299",
   "status": "partial",
   "theorems": [
    "Metku.Panels.C299_partial",
    "Metku.Panels.C299_viol",
    "Metku.Panels.C299_dict_partial",
    "Metku.Panels.C299_dict_viol"
   ],
   "note": "Proved for slabs with layers of their own and lists of equal length. Violated: a shared layer takes the size of the later slab; surplus entries are dropped."
  },
  {
   "property": "C300",
   "status": "partial",
   "theorems": [
    "Metku.CF.gross_area_polygon",
    "Metku.CF.gross_area_near",
    "Metku.CF.gross_area_narrow_viol"
   ],
   "note": "Fails for a lipped top flange narrower than 3.93 mean radii: the helper nodes at one and three quarters of the flange lie behind the corners and the polygon runs back and forth, so the reported area is too large."
  },
  {
   "property": "C301",
   "status": "proved",
   "theorems": [
    "Metku.CF.notional_widths"
   ],
   "note": "For rounded corners; with sharp corners the widths are those between centre lines by definition."
  },
  {
   "property": "C302",
   "status": "proved",
   "theorems": [
    "Metku.CF.c_effective_web",
    "Metku.CF.c_effective_full"
   ],
   "note": "Assumes that the strip lies within the straight part of the web. The reduction factors are inputs."
  },
  {
   "property": "C303",
   "status": "partial",
   "theorems": [
    "Metku.CF.c_free_flange",
    "Metku.CF.c_lipped_flange_viol",
    "Metku.CF.c_free_bottom_viol"
   ],
   "note": "Holds for a top flange without lip. With a lip the part next to the web always ends at a quarter of the flange, so for rho from one half up too much is removed; a bottom flange without lip is never reduced."
  },
  {
   "property": "C304",
   "status": "partial",
   "theorems": [
    "Metku.CF.c_top_lip_viol",
    "Metku.CF.c_bottom_lip_viol",
    "Metku.CF.c_gross_changes_viol"
   ],
   "note": "Fails: the end of a slender top lip stays in the effective section, the node of a slender bottom lip is moved beyond the tip and the area grows, in the gross section too, because its nodes are shared. What holds is c_effective_full under C302."
  },
  {
   "property": "C305",
   "status": "partial",
   "theorems": [
    "Metku.CF.z_effective_viol",
    "Metku.CF.z_effective_partial"
   ],
   "note": "AttributeError for every slender web (the profile has no attribute parts), NameError for every slender lipped top flange (nseg is never set); without lips the bottom flange is never reduced."
  },
  {
   "property": "C306",
   "status": "partial",
   "theorems": [
    "Metku.CF.effective_fresh",
    "Metku.CF.effective_history_viol"
   ],
   "note": "Bending keeps the bottom factors of an earlier compression query; unknown loads are ignored silently. The factors computed in a call are inputs."
  },
  {
   "property": "C307",
   "status": "partial",
   "theorems": [
    "Metku.CF.edge_stiffness_rule",
    "Metku.CF.edge_stiffness_unequal",
    "Metku.CF.edge_stiffness_viol"
   ],
   "note": "Aeff of a section made without a design force uses the larger stiffness without compression; a section with one lip cannot be computed in compression (AttributeError)."
  },
  {
   "property": "C308",
   "status": "proved",
   "theorems": [
    "Metku.CF.distortional_rule",
    "Metku.CF.distortional_stiffer"
   ],
   "note": "The reduction factor itself is covered by the cold-formed rules; it exceeds one slightly just above 0.65, so monotonicity is stated for the slenderness."
  },
  {
   "property": "C309",
   "status": "proved",
   "theorems": [
    "Metku.CF.stress_ratio_linear",
    "Metku.CF.stress_ratio_sign"
   ],
   "note": "The centroid is an input."
  },
  {
   "property": "C310",
   "status": "proved",
   "theorems": [
    "Metku.CF.axial_bounds",
    "Metku.CF.axial_more_slender"
   ],
   "note": "Slendernesses and areas are inputs; for lipped flanges the code keeps only the slenderness of the stiffener (that of the plate is overwritten)."
  },
  {
   "property": "C311",
   "status": "partial",
   "theorems": [
    "Metku.CF.purlin_series",
    "Metku.CF.purlin_section",
    "Metku.CF.purlin_load_viol"
   ],
   "note": "For a C section K and KB treat gravity as uplift (kh knows gravity as 'down')."
  },
  {
   "property": "C312",
   "status": "partial",
   "theorems": [
    "Metku.CF.ruukki_formed",
    "Metku.CF.ruukki_missing_viol"
   ],
   "note": "Outside the catalogue UnboundLocalError."
  },
  {
   "property": "C313",
   "status": "proved",
   "theorems": [
    "Metku.CF.constructor_rule"
   ],
   "note": "The flange widths are those between centre lines because the flag is stored before the widths are read."
  },
  {
   "property": "C314",
   "status": "partial",
   "theorems": [
    "Metku.CF.area_delta_viol"
   ],
   "note": "The deduction is taken off the area of a model whose corners are rounded already. What holds is C300."
  },
  {
   "property": "C315",
   "status": "proved",
   "theorems": [
    "Metku.IProf.two_descriptions",
    "Metku.IProf.section_integrals",
    "Metku.IProf.section_order",
    "Metku.IProf.catalogue_sections"
   ],
   "note": "Same formulas as in the class made from a height (C66) except for the perimeter, which is right here."
  },
  {
   "property": "C316",
   "status": "partial",
   "theorems": [
    "Metku.IProf.section_resistance",
    "Metku.IProf.thick_strength_viol"
   ],
   "note": "The strength for thicknesses over 40 mm, which the material carries, is never used."
  },
  {
   "property": "C317",
   "status": "partial",
   "theorems": [
    "Metku.IProf.steel_materials",
    "Metku.IProf.stainless_viol"
   ],
   "note": "The four stainless steels have a modulus of 200 where carbon steel has 210000."
  },
  {
   "property": "C318",
   "status": "partial",
   "theorems": [
    "Metku.IProf.unit_round_trip",
    "Metku.IProf.length_unit_viol",
    "Metku.IProf.length_unit_partial"
   ],
   "note": "Units of length multiply everything they were ever multiplied with. settings/units.py cannot be imported (Parameters is inside a string)."
  },
  {
   "property": "C319",
   "status": "partial",
   "theorems": [
    "Metku.IProf.cold_member_strength",
    "Metku.IProf.cold_member_viol",
    "Metku.IProf.required_stiffness"
   ],
   "note": "The cold-formed sections have no attributes fy, I and imp_factor, so slenderness and buckling strength raise AttributeError for them; what is proved holds for a profile that has them."
  },
  {
   "property": "C320",
   "status": "partial",
   "theorems": [
    "Metku.CF.average_strength",
    "Metku.CF.average_strength_viol"
   ],
   "note": "Four bends are counted whatever the section."
  },
  {
   "property": "C321",
   "status": "partial",
   "theorems": [
    "Metku.Grp.group_variables",
    "Metku.Grp.group_drop_viol",
    "Metku.Grp.group_drop_viol_witness"
   ],
   "note": "Proved for lists of equal length. Violated otherwise: the lists are zipped, so a short list of bounds silently drops the attributes at the end (variable_group.py 59-62), for every such group."
  },
  {
   "property": "C322",
   "status": "partial",
   "theorems": [
    "Metku.Grp.group_variables",
    "Metku.Grp.group_start_viol",
    "Metku.Grp.group_start_viol_witness",
    "Metku.Grp.index_start_viol"
   ],
   "note": "Given start values are used as they are. Violated without start values: every variable starts at zero, also below a positive lower bound; an index variable starts at a list instead of an index."
  },
  {
   "property": "C323",
   "status": "proved",
   "theorems": [
    "Metku.Grp.group_refused"
   ],
   "note": "Missing attributes of any object, missing bounds or values, and unsupported types raise."
  },
  {
   "property": "C324",
   "status": "partial",
   "theorems": [
    "Metku.Grp.group_substitute",
    "Metku.Grp.index_substitute",
    "Metku.Grp.index_attributes_viol",
    "Metku.Grp.index_attributes_viol_witness"
   ],
   "note": "Proved for continuous and discrete groups and for index groups with `attribute`. Violated for index groups with `attributes`: the property of the variable is `None` and every substitution raises."
  },
  {
   "property": "C325",
   "status": "partial",
   "theorems": [
    "Metku.Ecc.ecc_variables",
    "Metku.Ecc.gap_constraints",
    "Metku.Ecc.gap_constraints_viol",
    "Metku.Ecc.ecc_objective"
   ],
   "note": "Proved as stated for trusses whose ridge joint has two braces. A ridge joint with three braces makes the creation fail with `TypeError`; braces almost as wide as the chord leave no admissible gap and nothing is reported."
  },
  {
   "property": "C326",
   "status": "partial",
   "theorems": [
    "Metku.Ecc.vertical_braces",
    "Metku.Ecc.vertical_ridge_viol",
    "Metku.Ecc.vertical_ridge_viol_witness"
   ],
   "note": "Proved for braces that do not end at the ridge. Violated at the ridge of a truss with sloped chords: the constraint uses the perpendicular of one chord although the intersection moves vertically."
  },
  {
   "property": "C327",
   "status": "partial",
   "theorems": [
    "Metku.Aco.aco_runs",
    "Metku.Aco.aco_start",
    "Metku.Aco.aco_members_viol",
    "Metku.Aco.aco_top_viol"
   ],
   "note": "Proved for at most as many members as variables and at least as many ants as are rewarded; otherwise every search raises IndexError."
  },
  {
   "property": "C328",
   "status": "partial",
   "theorems": [
    "Metku.Aco.aco_values_partial",
    "Metku.Aco.aco_values_viol"
   ],
   "note": "Proved if all variables have the same list. The list of the first variable is used for all members: with a disjoint second list no evaluated design is allowed."
  },
  {
   "property": "C329",
   "status": "proved",
   "theorems": [
    "Metku.Aco.aco_stop"
   ],
   "note": ""
  },
  {
   "property": "C330",
   "status": "partial",
   "theorems": [
    "Metku.Bench.add_variable_spec",
    "Metku.Bench.set_variables",
    "Metku.Bench.add_variable_viol"
   ],
   "note": "Holds for `add` and for assigning the list; `add_variable` and `add_variables` append to a temporary list and change nothing."
  },
  {
   "property": "C331",
   "status": "partial",
   "theorems": [
    "Metku.Bench.three_discrete_partial",
    "Metku.Bench.three_discrete_viol"
   ],
   "note": "Proved for variables made with `values`; the problem passes `profiles`, so the bounds are missing and every substitution raises TypeError."
  },
  {
   "property": "C332",
   "status": "proved",
   "theorems": [
    "Metku.Bench.ten_bar_feasible"
   ],
   "note": ""
  },
  {
   "property": "C333",
   "status": "partial",
   "theorems": [
    "Metku.Bench.simple_ten_feasible",
    "Metku.Bench.simple_ten_weight",
    "Metku.Bench.ten_bar_agree_viol",
    "Metku.Bench.ten_bar_order_viol"
   ],
   "note": "Bars 1 and 8 and bars 3 and 7 are interchanged, so weights differ for almost all vectors; one problem limits only vertical displacements, the other one also horizontal displacements and rotations."
  },
  {
   "property": "C334",
   "status": "partial",
   "theorems": [
    "Metku.Bench.three_bar_feasible",
    "Metku.Bench.fifteen_bar_feasible",
    "Metku.Bench.three_names_viol"
   ],
   "note": "Feasibility is proved; the names \"Compression\" and \"Tension\" are interchanged for every bar."
  },
  {
   "property": "C335",
   "status": "partial",
   "theorems": [
    "Metku.Bench.ten_bar_weight",
    "Metku.Bench.three_bar_weight",
    "Metku.Bench.old_three_weight_viol"
   ],
   "note": "The three bar problem of benchmark_trusses.py leaves the third bar out of its weight."
  },
  {
   "property": "C336",
   "status": "partial",
   "theorems": [
    "Metku.Bench.old_three_partial",
    "Metku.Bench.old_three_cons_viol"
   ],
   "note": "Proved for equal bars. The functions read the loop variable after the loop, so all constraints use the last bar."
  },
  {
   "property": "C337",
   "status": "partial",
   "theorems": [
    "Metku.Bench.binary_partial",
    "Metku.Bench.binary_viol"
   ],
   "note": "Proved for constraints that know their problem; the problem makes them without it, so every call raises AttributeError."
  },
  {
   "property": "C338",
   "status": "proved",
   "theorems": [
    "Metku.Bench.fifty_two_nodes",
    "Metku.Bench.fifty_two_bars"
   ],
   "note": ""
  },
  {
   "property": "C339",
   "status": "partial",
   "theorems": [
    "Metku.Bench.fifty_two_partial",
    "Metku.Bench.fifty_two_viol"
   ],
   "note": "Proved for variables added with `add`; as written the problem has no variables and no constraints."
  },
  {
   "property": "C340",
   "status": "partial",
   "theorems": [
    "Metku.STruss.truss_members",
    "Metku.STruss.truss_accepts",
    "Metku.STruss.truss_short_viol",
    "Metku.STruss.truss_type_viol"
   ],
   "note": "Members, numbers, profiles and errors proved for equally long lists and the two known types. Violated otherwise: with fewer profiles than members the rest is dropped, with an unknown truss_type there is no member, both without an error (proved)."
  },
  {
   "property": "C341",
   "status": "proved",
   "theorems": [
    "Metku.STruss.truss_response",
    "Metku.STruss.truss_equilibrium",
    "Metku.STruss.truss_superposition"
   ],
   "note": "Exact arithmetic; rods only. Existence and uniqueness of the solution of the assembled equations, equilibrium of axial forces, superposition."
  },
  {
   "property": "C342",
   "status": "partial",
   "theorems": [
    "Metku.STruss.three_bar",
    "Metku.STruss.ten_bar",
    "Metku.STruss.fifteen_bar",
    "Metku.STruss.three_response",
    "Metku.STruss.ten_response",
    "Metku.STruss.ten_statics",
    "Metku.STruss.ten_mechanism_viol"
   ],
   "note": "Soundness proved with the full number of profiles; a shorter list is accepted and makes the ten bar truss a mechanism (proved). raami's fifteen_bar_truss itself stops with AttributeError (no method generate), the frame2d version is the one proved."
  },
  {
   "property": "C343",
   "status": "partial",
   "theorems": [
    "Metku.Vier.vier_nodes",
    "Metku.Vier.vier_members",
    "Metku.Vier.vier_supports",
    "Metku.Vier.vier_panels_viol",
    "Metku.Vier.vier_outline_viol"
   ],
   "note": "Geometry, members and supports hold for every positive number of panels. The code disagrees twice: -1 panels are accepted as an empty truss, and the inherited outline points are not corners of the truss."
  },
  {
   "property": "C344",
   "status": "partial",
   "theorems": [
    "Metku.Vier.vier_joints_viol",
    "Metku.Vier.vier_joints_partial"
   ],
   "note": "The collected members are right at every node, but generate_joints raises AttributeError for every truss (a Y joint has no joint object whose method is called)."
  },
  {
   "property": "C345",
   "status": "partial",
   "theorems": [
    "Metku.Vier.vier_uniform",
    "Metku.Vier.vier_point",
    "Metku.Vier.vier_weight",
    "Metku.Vier.vier_chord_viol"
   ],
   "note": "Loads and weights hold; the code disagrees on unknown chord names, which are ignored silently."
  },
  {
   "property": "C346",
   "status": "partial",
   "theorems": [
    "Metku.Portal.portal_geometry",
    "Metku.Portal.portal_replace_viol",
    "Metku.Portal.portal_order_viol",
    "Metku.Portal.portal_depth_viol"
   ],
   "note": "Proved for a truss created once on a fresh frame, followed by the columns. The code disagrees otherwise: bottom_chord_to_column is never reset, create_columns without a truss does nothing, and a truss deeper than the frame is accepted."
  },
  {
   "property": "C347",
   "status": "partial",
   "theorems": [
    "Metku.Portal.portal_weight_viol"
   ],
   "note": "The code disagrees for every frame: Wcols is computed and printed but not returned."
  },
  {
   "property": "C348",
   "status": "partial",
   "theorems": [
    "Metku.Portal.portal_total",
    "Metku.Portal.portal_column_partial",
    "Metku.Portal.portal_later_partial",
    "Metku.Portal.portal_double_viol",
    "Metku.Portal.portal_first_viol"
   ],
   "note": "portal_total gives the exact load for every sequence; the code disagrees by the first chord request of each load case, which is in the loads of the truss and of the frame, and both are added to the finite element model."
  },
  {
   "property": "C349",
   "status": "partial",
   "theorems": [
    "Metku.TOpt.lp_feasible",
    "Metku.TOpt.lp_objective",
    "Metku.TOpt.lp_total",
    "Metku.TOpt.lp_default_viol"
   ],
   "note": "Proved for given stress limits, members numbered by their position and with different end nodes. Without a stress limit the call ends with NameError: the default refers to an undefined name."
  },
  {
   "property": "C350",
   "status": "proved",
   "theorems": [
    "Metku.TOpt.lp_elastic",
    "Metku.TOpt.lp_bound"
   ],
   "note": ""
  },
  {
   "property": "C351",
   "status": "partial",
   "theorems": [
    "Metku.TOpt.scale_partial",
    "Metku.TOpt.scale_stuck_viol",
    "Metku.TOpt.scale_sign_viol",
    "Metku.TOpt.scale_below_viol",
    "Metku.TOpt.stress_cases_viol"
   ],
   "note": "Holds for designs within their bounds, displacement limits around zero, and the first load case. Without a suitable multiple the design is returned unchanged (only a message is printed); violated limits on the other side of zero stay violated; a design below its lower bounds is scaled too little, because constraints are evaluated for areas moved to the bounds; further load cases are not looked at."
  },
  {
   "property": "C352",
   "status": "partial",
   "theorems": [
    "Metku.TOpt.fsd_partial",
    "Metku.TOpt.fsd_stale_viol",
    "Metku.TOpt.fsd_fresh_viol",
    "Metku.TOpt.fsd_group_viol",
    "Metku.TOpt.fsd_frame2d_viol"
   ],
   "note": "The analysis is called with design=False, which does not hand the forces to the steel members of a raami truss: the result only depends on forces stored before, a new truss gets the smallest areas for all loads, and a group gets the area of its last member. Frames of frame2d end with TypeError. Right if every variable has one member whose stored forces are the present ones."
  },
  {
   "property": "C353",
   "status": "partial",
   "theorems": [
    "Metku.EPOpt.rows_apart_partial",
    "Metku.EPOpt.rows_clear",
    "Metku.EPOpt.after_shear_viol",
    "Metku.EPOpt.flush_viol"
   ],
   "note": "Proved for extended end plates with adjacent tension rows. The code violates the claim for a tension row below a shear row (distance measured from the beam axis) and for flush plates (two variables named z1)."
  },
  {
   "property": "C354",
   "status": "partial",
   "theorems": [
    "Metku.EPOpt.top_edge_partial",
    "Metku.EPOpt.edge_fixed_viol"
   ],
   "note": "Proved when the top extension is a variable; with a fixed extension the code has no edge distance constraint and the row may lie on the plate edge."
  },
  {
   "property": "C355",
   "status": "partial",
   "theorems": [
    "Metku.EPOpt.bolts_partial",
    "Metku.EPOpt.bolts_clear",
    "Metku.EPOpt.stale_viol",
    "Metku.EPOpt.plate_fixed_viol"
   ],
   "note": "Proved for evaluations of the objective, which substitute twice; a single substitution uses the previous plate width, and with fixed width the plate edge is ignored."
  },
  {
   "property": "C356",
   "status": "partial",
   "theorems": [
    "Metku.EPOpt.eval_history",
    "Metku.EPOpt.start_partial",
    "Metku.EPOpt.made_consistent",
    "Metku.EPOpt.start_made_partial",
    "Metku.EPOpt.start_width_viol",
    "Metku.EPOpt.thickness_viol"
   ],
   "note": "History independence proved for all options; the start reproduces the joint only with fixed plate width; the argument plate_thicknesses is ignored by the code."
  },
  {
   "property": "C357",
   "status": "partial",
   "theorems": [
    "Metku.EPOpt.forces_partial",
    "Metku.EPOpt.negative_moment_viol",
    "Metku.EPOpt.pinned_viol"
   ],
   "note": "Equivalence proved for positive moment resistance; negative moments are always accepted and pinned_joint has no effect."
  },
  {
   "property": "C358",
   "status": "partial",
   "theorems": [
    "Metku.FDesign.max_forces_partial",
    "Metku.FDesign.nodal_forces_partial",
    "Metku.FDesign.last_case_viol",
    "Metku.FDesign.node_value_viol"
   ],
   "note": "Proved for the load case calculated last. The code violates the rest: earlier load cases may have larger forces (last_case_viol), and a node gets the larger end value of the element that starts there, not the force at the node (node_value_viol)."
  },
  {
   "property": "C359",
   "status": "partial",
   "theorems": [
    "Metku.FDesign.design_force_partial",
    "Metku.FDesign.ned_med_partial",
    "Metku.FDesign.jump_viol",
    "Metku.FDesign.shear_zero_viol"
   ],
   "note": "Proved for forces without jumps. The value just after a point load inside the member is missed (jump_viol) and VEd reads a component that plane elements never write, so it is always zero (shear_zero_viol)."
  },
  {
   "property": "C360",
   "status": "partial",
   "theorems": [
    "Metku.FDesign.utilization_partial",
    "Metku.FDesign.verdict_partial",
    "Metku.FDesign.verdict_viol"
   ],
   "note": "Utilizations by load case are right; the verdict is that of the load case calculated last, so an overload in another one is hidden (verdict_viol)."
  },
  {
   "property": "C361",
   "status": "partial",
   "theorems": [
    "Metku.FDesign.optimum_partial",
    "Metku.FDesign.family_partial",
    "Metku.FDesign.two_cases_viol",
    "Metku.FDesign.same_ratio_viol",
    "Metku.FDesign.no_fit_viol",
    "Metku.FDesign.family_viol"
   ],
   "note": "Proved for the forces of the load case calculated last. Every load case is checked with these forces (two_cases_viol, same_ratio_viol); without a sufficient profile the last one is kept silently (no_fit_viol); square hollow, HE AA, HE C, HE M and welded sections are searched in another family (family_viol)."
  },
  {
   "property": "C362",
   "status": "partial",
   "theorems": [
    "Metku.FDesign.pass_partial",
    "Metku.FDesign.optimize_single_partial",
    "Metku.FDesign.last_member_viol"
   ],
   "note": "Proved for iterations that change no section, and for frames of one member with one load case. The flag that stops the search is that of the last member only (last_member_viol)."
  },
  {
   "property": "C363",
   "status": "partial",
   "theorems": [
    "Metku.FDesign.rename_partial",
    "Metku.FDesign.height_partial",
    "Metku.FDesign.rename_viol",
    "Metku.FDesign.rename_chs_viol",
    "Metku.FDesign.letter_viol",
    "Metku.FDesign.height_ignored_viol",
    "Metku.FDesign.height_he_viol",
    "Metku.FDesign.height_twice_viol"
   ],
   "note": "Proved for IPE, HE A, HE B and hollow sections with whole dimensions, heights of IPE and square hollow sections. Other names are refused or change the section; unknown HE letters and most heights are ignored without an error. Texts of welded profiles (WI with a space) are not modelled."
  },
  {
   "property": "C364",
   "status": "partial",
   "theorems": [
    "Metku.MSpan.length_le",
    "Metku.MSpan.straight_partial",
    "Metku.MSpan.bend_viol"
   ],
   "note": "Proved for straight members; in general length and weight are at most the sums. For a member with a bend they are smaller (bend_viol): the length is the distance between the ends."
  },
  {
   "property": "C365",
   "status": "partial",
   "theorems": [
    "Metku.MSpan.points_partial",
    "Metku.MSpan.points_all_partial",
    "Metku.MSpan.short_list_viol",
    "Metku.MSpan.local_partial",
    "Metku.MSpan.local_bend_viol",
    "Metku.MSpan.before_viol"
   ],
   "note": "Points proved if every span has a number of elements, local coordinates for straight members from the first node on. A list of numbers that is too short drops the last spans silently; with a bend local coordinate 1 is not the last node; a point before the first node gets a positive coordinate."
  },
  {
   "property": "C366",
   "status": "partial",
   "theorems": [
    "Metku.MSpan.spans_agree_partial",
    "Metku.MSpan.set_last",
    "Metku.MSpan.generate_partial",
    "Metku.MSpan.one_element_viol"
   ],
   "note": "Sections and factors proved for all sequences of operations; releases for two or more elements. A member of one element hinged at both ends loses the release of the first end."
  },
  {
   "property": "C367",
   "status": "partial",
   "theorems": [
    "Metku.MSpan.design_partial",
    "Metku.MSpan.allowable_viol",
    "Metku.MSpan.last_case_viol",
    "Metku.MSpan.optimum_first_partial",
    "Metku.MSpan.optimum_none_viol",
    "Metku.MSpan.max_utility_viol"
   ],
   "note": "The utilization is right; the verdict compares with one whatever the allowable utilization and is that of the last load case. If a profile serves, the first one is chosen; the required utilization passed is not read, and if none serves the last profile is left on the member, whatever its class. The utilization of a span is an argument of the model."
  },
  {
   "property": "C368",
   "status": "partial",
   "theorems": [
    "Metku.Export.robot_geometry_partial",
    "Metku.Export.robot_written_partial",
    "Metku.Export.robot_member_rows_partial",
    "Metku.Export.robot_space_viol",
    "Metku.Export.robot_twice_viol",
    "Metku.Export.robot_missing_viol"
   ],
   "note": "Proved for plane frames whose nodes are added once and before use. The third coordinate of a space frame is not written; a node added twice is written twice under one number; a member with a node that was not added stops the export. Loads are never written."
  },
  {
   "property": "C369",
   "status": "partial",
   "theorems": [
    "Metku.Export.robot_supports_partial",
    "Metku.Export.robot_support_rows_partial",
    "Metku.Export.robot_member_rows_partial",
    "Metku.Export.robot_space_support_viol",
    "Metku.Export.robot_general_support_viol",
    "Metku.Export.robot_releases_partial",
    "Metku.Export.robot_he_partial",
    "Metku.Export.robot_chs_viol",
    "Metku.Export.robot_name_partial",
    "Metku.Export.robot_name_viol"
   ],
   "note": "Proved for the named supports of plane frames, all hinges and HE names. In space the support in x leaves x free; supports with their own directions stop the export; sections without a name method are written as None; the point in the name of the file is looked for at its second character."
  },
  {
   "property": "C370",
   "status": "partial",
   "theorems": [
    "Metku.Export.lines_of_set",
    "Metku.Export.abaqus_geometry_partial",
    "Metku.Export.abaqus_sets_partial",
    "Metku.Export.abaqus_symm_partial",
    "Metku.Export.abaqus_no_section_viol",
    "Metku.Export.abaqus_frame_viol",
    "Metku.Export.abaqus_section_viol",
    "Metku.Export.abaqus_long_line_viol",
    "Metku.Export.abaqus_twice_viol"
   ],
   "note": "Nodes, elements, sets and the nodes held out of the plane proved for every file written. Without listed members and sets nothing gets a section; a frame that is not a truss and sections that are not rectangular hollow sections cannot be exported with listed members; the set of a member is one line of any length; a truss with constraints cannot be exported twice with the default options. The model has the records of the file, not its text."
  },
  {
   "property": "C371",
   "status": "partial",
   "theorems": [
    "Metku.Export.abaqus_releases_partial",
    "Metku.Export.abaqus_single_viol",
    "Metku.Export.abaqus_supports_partial",
    "Metku.Export.abaqus_codes_partial",
    "Metku.Export.abaqus_xsymm_viol",
    "Metku.Export.abaqus_general_viol",
    "Metku.Export.abaqus_monitored_partial",
    "Metku.Export.abaqus_monitored_viol"
   ],
   "note": "Releases proved for members of two or more elements none of which is released at both ends; those of members of one element are lost. Fixed, hinged and vertical supports are right; a support in x is written as a symmetry condition that also holds the rotation, others are dropped. The closest nodes are found, but their positions are written where numbers (one higher) are expected."
  },
  {
   "property": "C372",
   "status": "proved",
   "theorems": [
    "Metku.Bolts.C372_components",
    "Metku.Bolts.C372_group",
    "Metku.Bolts.C372_weakest",
    "Metku.Bolts.C372_stiffener"
   ],
   "note": "For positive dimensions and effective lengths; groups in which the row has no T-stub are skipped as in the code; effective lengths above 100 m are capped by the code and in the statement."
  }
 ]
}