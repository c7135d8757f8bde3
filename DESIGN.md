# Formal model of metku – design

Target: `/repo` (kuisidu/metku, Python). Tool: Lean 4.33.0 with Mathlib (single modules imported).
Layout: `lean/Verif/Model/*.lean` holds the model (each definition cites file and lines of `/repo`),
`lean/Verif/Lemmas/*.lean` helper lemmas, `lean/Verif/Props/*.lean` the property theorems, each with
`example`s showing that the hypotheses are met by a concrete non-trivial case.

## Trusted base

* Lean kernel; axioms used by the theorems: at most `propext`, `Classical.choice`, `Quot.sound`
  (section "Axioms" below lists the result of `#print axioms`).
* Reading of the Python source. The code is never run here; each model definition was written from the
  text and cites it.
* **Floating point**: Python floats / numpy arrays are modelled by exact ordered fields (`K` with
  `[Field K] [LinearOrder K] [IsStrictOrderedRing K]`, executable at `ℚ`) or by `ℝ` where `sqrt`, `pi`, `log`, `exp` occur.
  Rounding, overflow, NaN and infinities are not modelled. Decimal literals are the exact rationals they denote.
* **Exceptions** are values (`Except PyErr α` or `Option α`): division by zero, `math.sqrt` of a negative
  number, missing dictionary keys, unbound locals, wrong call signatures appear as error results
  where the property reaches them.
* **External solvers** (`numpy.linalg.solve`, `eigsh`, LP/NLP solvers, random number generators) are parameters;
  the assumptions made about them are hypotheses of the theorems that use them.
* Printing, plotting, export to other programs and wall-clock time are not modelled.
* **Rules of the standards**: the specifications that a theorem compares the code with (EN 1990, 1991, 1993, 1995 formulas and
  tables in `Verif/Spec` and at the head of the property files) were written from general knowledge of the standards and from the
  references in the docstrings of `/repo`; the texts of the standards were not available here. A reader who relies on
  "agrees with Table x" should compare the few lines of the specification with the standard.

## Plan and status per property

Files of the model and method follow the first forty properties as planned before the proofs; the later rows were added as the model grew.

| id | property | status | theorems |
|----|----|----|----|
| C01 | Degrees of freedom are numbered without gaps or collisions | proved | `Fem.C01` |
| C02 | The global stiffness matrix is the sum of the element stiffness matrices | proved | `Fem.C02`, `Fem.C02_virtual_work`, `Fem.C02_sparsity`, `Fem.C02_no_out_of_range`, `Fem.C02_numbers` |
| C03 | Assembled stiffness is symmetric and never produces negative energy | proved | `Fem.C03_rod2`, `Fem.C03_rod3`, `Fem.C03_spring`, `Fem.C03_beam`, `Fem.C03_semi`, `Fem.C03` |
| C04 | Rigid-body motion causes no forces | partial | `Fem.C04_rod`, `Fem.C04_beam_partial`, `Fem.C04_beam_translation`, `Fem.C04_semi_partial`, `Fem.C04_violation` |
| C05 | The load vector superposes loads and isolates load cases | proved | `Fem.C05`, `Fem.C05_order`, `Fem.C05_isolation`, `Fem.C05_inactive` |
| C06 | Linear static solution satisfies the supports and equilibrium | partial | `Fem.C06_partial`, `Fem.C06_first_partial`, `Fem.C06_invariant`, `Fem.C06_supported_unchanged`, `Fem.C06_violation_default`, `Fem.C06_violation_stale` |
| C07 | Superposition of load cases | proved | `Fem.C07` |
| C08 | Bar forces are in equilibrium and positive in tension | proved | `Fem.C08` |
| C09 | Equivalent nodal loads are statically equivalent to the member load | partial | `Fem.C09_local_partial`, `Fem.C09_global_partial`, `Fem.C09_violation_axial`, `Fem.C09_violation_factor` |
| C10 | End releases transmit no released force | proved | `Fem.C10`, `Fem.C10_hinge_defined`, `Fem.C10_loaded` |
| C11 | Line-load effect is proportional to the load scale factor | partial | `Fem.C11_local_partial`, `Fem.C11_global_square`, `Fem.C11_violation` |
| C12 | Several line loads on one member superpose in the member forces | partial | `Fem.C12_partial`, `Fem.C12_last_wins`, `Fem.C12_violation` |
| C13 | Analysis after editing the model uses the current model | partial | `Fem.C13_first_partial`, `Fem.C13_partial`, `Fem.C13_numbering_frozen`, `Fem.C13_violation` |
| C14 | Beam shape functions interpolate the nodal values | partial | `Fem.C14_partial`, `Fem.C14_unit_partial`, `Fem.C14_violation` |
| C15 | Substituting a design keeps every variable inside its bounds and invalidates old analysis results | proved | `Opt.C15`, `Opt.C15_bounds`, `Opt.C15_structure`, `Opt.C15_total` |
| C16 | The feasibility verdict agrees with the constraints | proved | `Opt.C16`, `Opt.C16_closed` |
| C17 | CONLIN approximation is exact to first order and convex | proved | `Opt.C17_value`, `Opt.C17_gradient`, `Opt.C17_convex` |
| C18 | MMA approximation is exact to first order and lives inside its asymptotes | partial | `Opt.C18_value`, `Opt.C18_gradient`, `Opt.C18_grad`, `Opt.C18_convex`, `Opt.C18_asymptotes`, `Opt.C18_bounds_partial`, `Opt.C18_bounds_mu`, `Opt.C18_violation`, `Opt.C18_violation_first` |
| C19 | Branching never loses a discrete solution | partial | `Opt.C19_partial`, `Opt.C19_total_partial`, `Opt.C19_violated_int`, `Opt.C19_violated_gap`, `Opt.C19_violated_cont` |
| C20 | The solver's best-so-far record is feasible and never gets worse | partial | `Opt.C20_partial`, `Opt.C20_step`, `Opt.C20_monotone`, `Opt.C20_violation_start`, `Opt.C20_violation_none`, `Opt.C20_violation_reuse` |
| C21 | Branch and bound returns a global optimum | partial | `Opt.C21_partial`, `Opt.C21_violated_lost`, `Opt.C21_violated_infeasible` |
| C22 | Penalty functions charge nothing for feasible designs and never reward violation | partial | `Opt.C22_exact_zero`, `Opt.C22_exact_partial`, `Opt.C22_exterior_zero`, `Opt.C22_exterior_partial`, `Opt.C22_violation`, `Opt.C22_violation_masked`, `Opt.C22_odd_violation` |
| C23 | Multiplier updates keep inequality multipliers nonnegative and per-bound | partial | `Opt.C23_step`, `Opt.C23_history`, `Opt.C23_own_partial`, `Opt.C23_violation` |
| C24 | Objective evaluation honours locked variables | partial | `Opt.C24_args`, `Opt.C24_partial`, `Opt.C24_violation` |
| C25 | Neighbouring discrete values bracket the current value tightly | proved | `Opt.C25_smaller`, `Opt.C25_larger` |
| C26 | Particle swarm respects the design space and improves monotonically | partial | `Opt.C26_velocity`, `Opt.C26_bounds_partial`, `Opt.C26_monotone`, `Opt.C26_record`, `Opt.C26_feasible_partial`, `Opt.C26_personal`, `Opt.C26_personal_own`, `Opt.C26_start_infeasible`, `Opt.C26_idle`, `Opt.C26_full_run`, `Opt.C26_violated_discrete`, `Opt.C26_violated_gt` |
| C27 | Bound tightening removes no feasible design | partial | `Opt.C27_partial`, `Opt.C27_violated_gt`, `Opt.C27_violated_tiny`, `Opt.C27_violated_unbound` |
| C28 | Locked variables do not move | partial | `Opt.C28_partial`, `Opt.C28_structure`, `Opt.C28_violation` |
| C29 | Section classification is monotone in slenderness | proved | `Ec3.C29` |
| C30 | Combined classification reduces to the pure cases | proved | `Ec3.C30` |
| C31 | Classification uses the material's epsilon for every steel grade | partial | `Ec3.C31_partial`, `Ec3.C31_violation`, `Ec3.C31_combined_partial` |
| C32 | The buckling reduction factor is a proper reduction factor | proved | `Ec3.C32`, `Ec3.C32_curves`, `Ec3.C32_order`, `Ec3.C32_value` |
| C33 | The equivalent moment factor stays within its code range and ignores member direction | partial | `Ec3.C33_range`, `Ec3.C33_swap_partial`, `Ec3.C33_violation` |
| C34 | Fire reduction factors exist and decrease over the whole temperature range | partial | `Fire.C34_partial`, `Fire.C34_mono_partial`, `Fire.C34_violation`, `Fire.C34_bolts`, `Fire.C34_range` |
| C35 | Plate-buckling reduction factors are continuous, monotone and at most one | proved | `Plate.C35`, `Plate.C35_slenderness` |
| C36 | Effective widths partition the effective part and never exceed the plate | proved | `Plate.C36` |
| C37 | Buckling factors follow the code table over the whole stress-ratio range | partial | `Plate.C37_partial`, `Plate.C37_violation` |
| C38 | Hollow-section properties stay consistent under dimension edits | partial | `Steel.C38_partial`, `Steel.C38_violation` |
| C39 | Member buckling resistance is bounded by plastic resistance and Euler load and falls with length | proved | `Steel.C39`, `Steel.C39_value`, `Steel.C39_curves` |
| C40 | The member utilisation reported by design covers every check | partial | `Steel.C40_partial`, `Steel.C40_factor_partial`, `Steel.C40_lt_partial`, `Steel.C40_violation` |
| C41 | Constraints are evaluated with an up-to-date structural analysis | partial | `Opt.C41_partial`, `Opt.C41_violation` |
| C42 | A constraint sees the design it is asked about | partial | `Opt.C42_partial`, `Opt.C42_violation` |
| C43 | Linearisation returns first-order difference models and leaves the problem as it was | partial | `Opt.C43_partial`, `Opt.C43_moves_free`, `Opt.C43_affine`, `Opt.C43_violation_gradient`, `Opt.C43_violation_stale`, `Opt.C43_violation_index`, `Opt.C43_violation_locked` |
| C44 | An objective that needs an analysis sees the analysis of the design it is asked about | partial | `Opt.C44_violation` |
| C45 | The recorded starting point is the first design substituted | partial | `Opt.C45_partial`, `Opt.C45_first`, `Opt.C45_violation` |
| C46 | Multiplier update is the gradient of the augmented Lagrangian | partial | `Opt.C46_con`, `Opt.C46_var_partial`, `Opt.C46_violation` |
| C47 | The inverse barrier overestimates inside the feasible set and grows at its edge | proved | `Opt.C47` |
| C48 | The recorded iteration history lists the visited points | partial | `Opt.C48_partial`, `Opt.C48_inplace`, `Opt.C48_violation` |
| C49 | Solving leaves the caller's starting point alone | partial | `Opt.C49_partial`, `Opt.C49_inplace`, `Opt.C49_violation` |
| C50 | Branch and bound terminates | proved | `Opt.C50` |
| C51 | Swarm designs take allowed values | partial | `Opt.C51_partial`, `Opt.C26_violated_discrete`, `Opt.C51_violated_int` |
| C52 | The equivalent moment factor is the one of Table B.3 | partial | `Ec3.C52_partial`, `Ec3.C52_violation` |
| C53 | Reported member forces follow beam theory and are in equilibrium with the member load | partial | `Fem.C53_unloaded`, `Fem.C53_deflection`, `Fem.C53_rod`, `Fem.C53_partial`, `Fem.C09_violation_axial`, `Fem.C11_violation`, `Fem.C12_violation` |
| C54 | A semi-rigid beam is a beam attached through rotational springs | proved | `Fem.C54` |
| C55 | Element matrices carry the exact energies | proved | `Fem.C55_elastic`, `Fem.C55_geometric`, `Fem.C55_geometric_global` |
| C56 | The stress-strain curve of steel in fire is a continuous curve of the code's shape | partial | `Fire.C56_partial`, `Fire.C56_violation` |
| C57 | Unprotected steel heats up along the heat balance and never gets hotter than the fire | partial | `Fire.C57_partial`, `Fire.C57_gas`, `Fire.C57_elongation_partial`, `Fire.C57_elongation_violation`, `Fire.C57_violation`, `Fire.C57_material` |
| C58 | The discreteness measure is the distance to the nearest allowed value | partial | `Opt.C58`, `Opt.C58_allowed_partial`, `Opt.C58_violation` |
| C59 | Iterates never leave the bounds | partial | `Opt.C59_partial`, `Opt.C59_step`, `Opt.C59_violation` |
| C60 | Unlocking a variable makes it follow again | proved | `Opt.C60` |
| C61 | Interaction of axial force and bending follows Annex B | partial | `Ec3.C61_partial`, `Ec3.C61_violation`, `Ec3.C61_sum_partial`, `Ec3.C61_sum_violation` |
| C62 | Resistances keep stresses within the yield strength and buckling below the critical force | proved | `Ec3.C62_sway`, `Ec3.C62_resistance`, `Ec3.C62_buckling` |
| C63 | Shear buckling resistance is bounded, monotone and follows Table 5.1 | partial | `Plate.C63_partial`, `Plate.C63_violation`, `Plate.C63_coefficient`, `Plate.C63_web`, `Plate.C63_flanges`, `Plate.C63_eta` |
| C64 | Resistance to transverse forces is self-consistent with clause 6 | proved | `Plate.C64` |
| C65 | The section properties of hollow sections are those of the shape | proved | `Steel.C65`, `Steel.C65_order`, `Steel.C65_circular` |
| C66 | The section properties of rolled I-sections are those of the shape | partial | `Steel.C66`, `Steel.C66_order`, `Steel.C66_violation` |
| C67 | The cross-section class follows the slenderness limits of EN 1993-1-1 for the forces acting | partial | `Steel.C67_partial`, `Steel.C67_rolled_partial`, `Steel.C67_hollow_partial`, `Steel.C67_violation`, `Steel.C67_sign_violation` |
| C68 | The cross-section check accepts exactly the forces EN 1993-1-1 6.2 allows | partial | `Steel.C68_partial`, `Steel.C68_violation` |
| C69 | Lateral-torsional buckling resistance is bounded, ordered and solves its design equation | proved | `Steel.C69`, `Steel.C69_mcrit`, `Steel.C69_constants` |
| C70 | Member design does not depend on the order in which sections were added | partial | `Steel.C70_partial`, `Steel.C70_violation` |
| C71 | Larger forces never lower the utilisation of a cross-section | partial | `Steel.C71_partial`, `Steel.C71_violation` |
| C72 | Ultimate limit state load combination | partial | `Loads.C72_partial`, `Loads.C72_single`, `Loads.C72_defined`, `Loads.C72_violation`, `Loads.C72_class` |
| C73 | Serviceability and accidental load combinations | partial | `Loads.C73_partial`, `Loads.C73_acc`, `Loads.C73_violation` |
| C74 | Adding loads to a combiner and reducing imposed loads | partial | `Loads.C74`, `Loads.C74_reduce`, `Loads.C74_violation`, `Loads.C74_defaults` |
| C75 | Peak velocity pressure | proved | `Wind.C75`, `Wind.C75_value`, `Wind.C75_keyError` |
| C76 | Wind zones and pressures on walls | partial | `Wind.C76_partial`, `Wind.C76_violation` |
| C77 | Wind zones and pressures on flat and monopitch roofs | partial | `Wind.C77_partial`, `Wind.C77_violation` |
| C78 | Pressure coefficients of monopitch roofs | partial | `Wind.C78_partial`, `Wind.C78_violation` |
| C79 | Resistances of K gap joints between hollow sections | proved | `Rhs.C79`, `Rhs.C79_value` |
| C80 | Eccentricity of a gap joint | proved | `Rhs.C80`, `Rhs.C80_method` |
| C81 | Shear in the gap of a K joint | proved | `Rhs.C81`, `Rhs.C81_shear`, `Rhs.C81_area` |
| C82 | Axial force in the gap of a K joint | partial | `Rhs.C82_partial`, `Rhs.C82_violation` |
| C83 | Design of a K gap joint | partial | `Rhs.C83_partial`, `Rhs.C83_violation` |
| C84 | Resistances of Y joints between hollow sections | partial | `Rhs.C84_value`, `Rhs.C84_partial`, `Rhs.C84_violation` |
| C85 | Design of a Y joint | partial | `Rhs.C85_partial`, `Rhs.C85_violation` |
| C86 | Side wall buckling under a compressed brace | partial | `Rhs.C86_partial`, `Rhs.C86_violation` |
| C87 | Lines in the plane | proved | `Rhs.C87`, `Rhs.C87_intersect` |
| C88 | A bolt of a size, class and length | partial | `Bolts.C88_partial`, `Bolts.C88_assembly`, `Bolts.C88_violation` |
| C89 | Changing the size of a bolt | partial | `Bolts.C89_partial`, `Bolts.C89_violation`, `Bolts.C89_violation_length` |
| C90 | Shear resistance of bolts | partial | `Bolts.C90_partial`, `Bolts.C90_threads`, `Bolts.C90_violation` |
| C91 | Bearing resistance of bolts | partial | `Bolts.C91_partial`, `Bolts.C91_bounds`, `Bolts.C91_violation` |
| C92 | Bolts in shear and tension | partial | `Bolts.C92_partial`, `Bolts.C92_violation` |
| C93 | Tension, punching and block tearing | proved | `Bolts.C93` |
| C94 | Stiffness of a joint at a moment | proved | `Bolts.C94` |
| C95 | Full-strength fillet welds | partial | `Bolts.C95_partial`, `Bolts.C95_violation` |
| C96 | Interaction of web compression with shear | partial | `Bolts.C96_partial`, `Bolts.C96_violation` |
| C97 | Column web in transverse tension and compression | partial | `Bolts.C97_tension_partial`, `Bolts.C97_compression_partial`, `Bolts.C97_rule_partial`, `Bolts.C97_violation` |
| C98 | T-stubs and bolt rows agree with plastic limit analysis | proved | `Bolts.C98`, `Bolts.C98_row`, `Bolts.C98_extension`, `Bolts.C98_group` |
| C99 | Effective lengths of groups of rows | proved | `Bolts.C99_flange`, `Bolts.C99_plate` |
| C100 | The row forces of an end-plate joint are admissible | proved | `Bolts.C100`, `Bolts.C100_compression` |
| C101 | The moment resistance is the largest of all admissible distributions | partial | `Bolts.C101_partial`, `Bolts.C108_violation` |
| C102 | Only rows in tension contribute to the moment | partial | `Bolts.C102_partial`, `Bolts.C102_violation` |
| C103 | The moment resistance exists with and without stiffeners | partial | `Bolts.C103_partial`, `Bolts.C103_violation` |
| C104 | Effective lengths follow the dimensions | partial | `Bolts.C104_partial`, `Bolts.C104_violation` |
| C105 | Initial stiffness is that of the springs of the joint | partial | `Bolts.C105_partial`, `Bolts.C105_row`, `Bolts.C105_violation` |
| C106 | Shear resistance of end-plate joints is safe for every bolt | partial | `Bolts.C106_partial`, `Bolts.C106_sum_partial`, `Bolts.C106_violation` |
| C107 | Column web panel with stiffeners | partial | `Bolts.C107_partial`, `Bolts.C107_violation` |
| C108 | The order of the groups does not matter | partial | `Bolts.C108_partial`, `Bolts.C108_violation` |
| C109 | Every height given to an end-plate joint gets a bolt row | partial | `Bolts.C109_partial`, `Bolts.C109_violation` |
| C110 | Bolt group of a fin plate in shear | partial | `FinPlates.equilibrium`, `FinPlates.C110_partial`, `FinPlates.C110_violation` |
| C111 | Bearing in fin plate and beam web | partial | `FinPlates.C111_partial`, `FinPlates.C111_violation`, `FinPlates.C111_violation_web` |
| C112 | Shear of fin plate and beam web | proved | `FinPlates.C112` |
| C113 | Bending of a fin plate | proved | `FinPlates.C113` |
| C114 | Lateral-torsional buckling of a fin plate | proved | `FinPlates.C114` |
| C115 | Block tearing of fin plate and beam web | partial | `FinPlates.C115_partial`, `FinPlates.C115_violation` |
| C116 | Check of the distances of holes of a fin plate | partial | `FinPlates.C116_partial`, `FinPlates.C116_violation` |
| C117 | Reading a distance does not move holes | partial | `FinPlates.C117_partial`, `FinPlates.C117_violation` |
| C118 | Bounds and move limits of sequential linear programming | partial | `Opt.C118_bounds`, `Opt.C118_partial`, `Opt.C118_violation`, `Opt.C118_violation_zero`, `Opt.C118_violation_mislp` |
| C119 | Total travel of sequential linear programming | proved | `Opt.C119`, `Opt.C119_limits`, `Opt.C119_mislp` |
| C120 | Relaxation keeps the linear problems solvable | partial | `Opt.C120_partial`, `Opt.C120_stuck`, `Opt.C120_violation` |
| C121 | Linearised constraints hold in the sense of their type | partial | `Opt.C121_partial`, `Opt.C121_violation`, `Opt.C121_mislp_partial`, `Opt.C121_violation_mislp` |
| C122 | MISLP gives discrete variables allowed values | partial | `Opt.C122_partial`, `Opt.C122_violation`, `Opt.C122_violation_binary` |
| C123 | MISLP can reach neighbouring values | partial | `Opt.C123_partial`, `Opt.C123_violation` |
| C124 | Predicted objective does not increase | proved | `Opt.C124` |
| C125 | Result of the discrete neighbourhood search | partial | `Opt.C125_partial`, `Opt.C125_monotone`, `Opt.C125_violation`, `Opt.C125_violation_endless`, `Opt.C125_violation_value`, `Opt.C125_violation_timeout` |
| C126 | Every variable of the discrete neighbourhood search has its own bounds | partial | `Opt.C126_partial`, `Opt.C126_violation`, `Opt.C126_violation_raises` |
| C127 | Neighbourhood search leaves the bounds of the variables alone | partial | `Opt.C127_partial`, `Opt.C127_violation` |
| C128 | Neighbourhood search uses improvements | partial | `Opt.C128_partial`, `Opt.C128_violation` |
| C129 | Values of the second phase | partial | `Opt.C129_partial`, `Opt.C129_violation`, `Opt.C129_violation_index` |
| C130 | Result of the genetic algorithm | partial | `Opt.C130_partial`, `Opt.C130_violation`, `Opt.C130_violation_reuse` |
| C131 | Starting point of the genetic algorithm | partial | `Opt.C131_partial`, `Opt.C131_violation` |
| C132 | New population of the genetic algorithm | proved | `Opt.C132` |
| C133 | The best individual survives a generation | partial | `Opt.C133_partial`, `Opt.C133_violation`, `Opt.C133_violation_odd` |
| C134 | Pheromone of the ant colony | partial | `Opt.C134_partial`, `Opt.C134_update`, `Opt.C134_violation`, `Aco.aco_local`, `Aco.aco_update` |
| C135 | Result of the ant colony | partial | `Opt.C135_partial`, `Opt.C135_all`, `Opt.C135_violation`, `Aco.aco_result`, `Aco.aco_again_viol` |
| C136 | Charring depth over time | partial | `Timber.C136_partial`, `Timber.C136_violation` |
| C137 | Fire protection never makes charring worse | partial | `Timber.C137_partial`, `Timber.C137_boards`, `Timber.C137_wood`, `Timber.C137_violation` |
| C138 | Residual section in fire | partial | `Timber.C138_partial`, `Timber.C138_violation` |
| C139 | Charring rates | partial | `Timber.C139_partial`, `Timber.C139_violation`, `Timber.C139_violation_gap` |
| C140 | Depth of tapered beams | partial | `Timber.C140_partial`, `Timber.C140_violation`, `Timber.C140_violation_belly` |
| C141 | Small elements follow their beam | partial | `Timber.C141_partial`, `Timber.C141_violation`, `Timber.C141_violation_width`, `Timber.C141_elements` |
| C142 | Volume of tapered beams | partial | `Timber.C142_partial`, `Timber.C142_violation`, `Timber.C142_violation_apex` |
| C143 | Depth of curved beams | partial | `Timber.C143_partial`, `Timber.C143_violation` |
| C144 | Design strengths of timber | proved | `Timber.C144` |
| C145 | Size effect of timber | partial | `Timber.C145_partial`, `Timber.C145_violation`, `Timber.C145_violation_depth` |
| C146 | Section checks of timber members | partial | `Timber.C146_partial`, `Timber.C146_violation`, `Timber.C146_violation_weak` |
| C147 | The design result of a timber member covers every section and check | partial | `Timber.C147_partial`, `Timber.C147_capacity`, `Timber.C147_violation` |
| C148 | Torsion of rectangles | partial | `Timber.C148_partial`, `Timber.C148_violation`, `Timber.C148_violation_turned` |
| C149 | Shear reduction near supports | partial | `Timber.C149_partial`, `Timber.C149_violation` |
| C150 | Every force of the analysis reaches the member | partial | `Timber.C150_partial`, `Timber.C150_violation` |
| C151 | Buckling reduction of timber struts | partial | `Timber.C151_partial`, `Timber.C151_violation` |
| C152 | Lateral buckling reduction of timber beams | partial | `Timber.C152_partial`, `Timber.C152_violation`, `Timber.C152_violation_torsion` |
| C153 | Segments between lateral supports | partial | `Timber.C153_partial`, `Timber.C153_violation` |
| C154 | Buckling lengths of timber members | partial | `Timber.C154_partial`, `Timber.C154_violation`, `Timber.C154_violation_inner`, `Timber.C154_violation_stale` |
| C155 | Buckling check covers every section | partial | `Timber.C155_partial`, `Timber.C155_violation`, `Timber.C155_violation_gap` |
| C156 | Lateral buckling check covers every section | partial | `Timber.C156_partial`, `Timber.C156_violation` |
| C157 | Bracing of timber beams | partial | `Timber.C157_partial`, `Timber.C157_violation_stiffness`, `Timber.C157_violation_load` |
| C158 | Slenderness used by the buckling check of timber members | partial | `Timber.C158_partial`, `Timber.C158_violation` |
| C159 | The factors for the apex of tapered and curved timber beams are those of EN 1995-1-1 | partial | `Timber.C159_partial`, `Timber.C159_violation_ridge`, `Timber.C159_violation_bent`, `Timber.C159_violation_side` |
| C160 | The moment at the apex of a timber beam is that of the section there, or interpolated between its neighbours | partial | `Timber.C160_partial`, `Timber.C160_checks`, `Timber.C160_violation` |
| C161 | The tapered edge of a timber beam is checked for its largest bending stress with the strength of EN 1995-1-1 | partial | `Timber.C161_partial`, `Timber.C161_violation`, `Timber.C161_violation_sign` |
| C162 | Tensile strength across the grain at the apex follows volume and shape of the beam | partial | `Timber.C162_partial`, `Timber.C162_violation_solid`, `Timber.C162_violation_arc` |
| C163 | Shear together with tension across the grain at the apex counts the shear at both ends | partial | `Timber.C163_partial`, `Timber.C163_violation` |
| C164 | Load on the compressed edge reduces the tension across the grain at the apex | partial | `Timber.C164_partial`, `Timber.C164_violation` |
| C165 | Compression across the grain bounds the pressure of every member that meets a timber member | partial | `Timber.C165_partial`, `Timber.C165_violation_single`, `Timber.C165_violation_stale`, `Timber.C165_violation_end`, `Timber.C165_violation_force`, `Timber.C165_violation_solid` |
| C166 | The volume of the apex zone of a curved timber beam is that of its curved part | partial | `Timber.C166_partial`, `Timber.C166_violation` |
| C167 | The intersection of two members is the common point of their lines | proved | `Frame2D.C167` |
| C168 | A point is found on a member exactly when it lies on it | proved | `Frame2D.C168` |
| C169 | The generated FEM model consists of one chain of elements per member | partial | `Frame2D.C169_partial`, `Frame2D.C169_violation_bar` |
| C170 | Members that meet are connected in the FEM model | partial | `Frame2D.C170_partial`, `Frame2D.C170_violation_rounded` |
| C171 | A support on a member restrains its node there, and nothing else is restrained | partial | `Frame2D.C171_partial`, `Frame2D.C171_violation_order`, `Frame2D.C171_violation_rounded` |
| C172 | Every point load reaches the FEM model once, at its place | partial | `Frame2D.C172_partial`, `Frame2D.C172_violation_dropped` |
| C173 | Line loads have their intensity at every element of the member | partial | `Frame2D.C173_partial`, `Frame2D.C173_violation_ramp`, `Frame2D.C173_violation_factor` |
| C174 | No load replaces another one, and load cases are known once | partial | `Frame2D.C174_partial`, `Frame2D.C174_violation_name` |
| C175 | A frame can be put together in any order and generated | partial | `Frame2D.C175_partial`, `Frame2D.C175_violation_tapered` |
| C176 | Updating the geometry of an unchanged frame moves nothing | partial | `Frame2D.C176_partial`, `Frame2D.C176_violation_portal` |
| C177 | Generating a frame a second time changes nothing | partial | `Frame2D.C177_partial`, `Frame2D.C177_violation_twice` |
| C178 | A regular frame has the columns and beams of its grid | proved | `Frame2D.C178` |
| C179 | Steel beams and columns take their type from the slope alone | proved | `Frame2D.C179` |
| C180 | The feet of a regular frame, and nothing else, are supported as asked | proved | `Frame2D.C180` |
| C181 | Springs and hinges at the ends of members reach the FEM model, inner connections are rigid | partial | `Frame2D.C181_partial`, `Frame2D.C181_violation_column`, `Frame2D.C181_violation_hinge`, `Frame2D.C181_violation_both`, `Frame2D.C181_violation_tapered` |
| C182 | A load combination contains exactly the factored loads of its load cases | partial | `Raami.C182_partial`, `Raami.C182_violation_factor`, `Raami.C182_violation_factor_any`, `Raami.C182_violation_id` |
| C183 | Combining the loads again changes nothing | partial | `Raami.C183_partial`, `Raami.C183_violation_other` |
| C184 | The first load case with variable actions leads a combination | partial | `Raami.C184_partial`, `Raami.C184_violation_empty`, `Raami.C184_violation_mixed` |
| C185 | Adding a load case to a frame adds all its loads | partial | `Raami.C185_partial`, `Raami.C185_violation_names`, `Raami.C185_violation_defaults`, `Raami.C185_violation_taken` |
| C186 | Every load of a frame has its load case, whatever is added in whatever order | partial | `Raami.C186_partial`, `Raami.C186_violation_twice` |
| C187 | Self weight acts once on every member | partial | `Raami.C187_partial`, `Raami.C187_partial_member`, `Raami.C187_violation_again` |
| C188 | The FEM model of a Raami frame is that of the frame as it is now | proved | `Raami.C188` |
| C189 | A moved node moves in the FEM model too | partial | `Raami.C189_partial`, `Raami.C189_violation_inner`, `Raami.C189_violation_integer`, `Raami.C189_violation_integer_y`, `Raami.C189_violation_plain` |
| C190 | Hinges are where they were put | partial | `Raami.C190_partial`, `Raami.C190_partial_add`, `Raami.C190_violation_both`, `Raami.C190_violation_shared` |
| C191 | A line load on a member is the same load on its elements | proved | `Raami.C191` |
| C192 | A piecewise constant load has its first value before the step and its second value after it | partial | `Raami.C192_partial`, `Raami.C192_violation_left`, `Raami.C192_violation_column` |
| C193 | The design of a member finds the first profile that suits | partial | `Raami.C193_partial`, `Raami.C193_violation_none` |
| C194 | The design of a group finds the first profile that suits all of its members | partial | `Raami.C194_partial`, `Raami.C194_violation_slender`, `Raami.C194_violation_pair` |
| C195 | After optimize_members no member is overloaded with its section | partial | `Raami.C195_partial`, `Raami.C195_violation_groups`, `Raami.C195_violation_none`, `Raami.C195_violation_limit` |
| C196 | Extreme forces of a member are extreme, and go with the forces at the same place | partial | `Raami.C196_partial`, `Raami.C196_violation` |
| C197 | The design value of a force is its largest one in absolute value | proved | `Raami.C197` |
| C198 | Local coordinates of a member and its displacements in order | proved | `Raami.C198` |
| C199 | Symmetry pairs of members are mirror images of each other | partial | `Raami.C199_partial`, `Raami.C199_partial_mutual`, `Raami.C199_violation_shared`, `Raami.C199_violation_double` |
| C200 | Section properties of a welded I-section are those of its three plates | proved | `WI.C200` |
| C201 | Moment resistances of a welded I-section are ordered and reach the yield strength | proved | `WI.C201` |
| C202 | The painted area of a welded I-section is its circumference | partial | `WI.C202_partial`, `WI.C202_violation` |
| C203 | Turning a welded I-section upside down does not change it | partial | `WI.C203_partial`, `WI.C203_violation_warping`, `WI.C203_violation_wagner` |
| C204 | Editing the dimensions of a welded I-section is the same as creating a new section | partial | `WI.C204_partial`, `WI.C204_violation` |
| C205 | The effective area of a welded I-section follows EN 1993-1-5 | partial | `WI.C205_partial`, `WI.C205_violation`, `WI.C205_violation_twice` |
| C206 | A welded I-section without slender parts is fully effective | partial | `WI.C206_partial`, `WI.C206_violation` |
| C207 | The moment resistance of a welded I-section reduced for the axial force | partial | `WI.C207_partial`, `WI.C207_violation` |
| C208 | The class of a welded I-section is that of its worst compressed plate | partial | `WI.C208_partial`, `WI.C208_violation_bottom`, `WI.C208_violation_sign`, `WI.C208_violation_weld` |
| C209 | The check of a welded I-section compares forces with resistances about both axes | partial | `WI.C209_partial`, `WI.C209_violation` |
| C210 | Section properties of a WQ section are those of its four plates | partial | `WQ.C210_partial`, `WQ.C210_violation`, `WQ.C210_violation_modulus`, `WQ.C210_violation_plastic` |
| C211 | The check of a WQ section returns ratios of forces to resistances | partial | `WQ.C211_partial`, `WQ.C211_violation` |
| C212 | The annual cost of an investment is the payment that clears it | partial | `Shop.C212_partial`, `Shop.C212_violation` |
| C213 | The cost of a job in the workshop does not depend on earlier jobs | proved | `Shop.C213` |
| C214 | Work costs something, and more work costs more | partial | `Shop.C214_partial`, `Shop.C214_violation_cut`, `Shop.C214_violation_weld` |
| C215 | Thicker plates and larger welds do not cost less | partial | `Shop.C215_partial`, `Shop.C215_violation` |
| C216 | Sawing costs add up over the ends of a member | partial | `Shop.C216_partial`, `Shop.C216_violation`, `Shop.C216_violation_grade` |
| C217 | Painting uses the paint that leaves the films with their dry thickness | proved | `Shop.C217` |
| C218 | The cost of a plate is the sum of material and work | partial | `Shop.C218_partial`, `Shop.C218_violation` |
| C219 | The cost of an end plate joint is the sum of its parts | partial | `Shop.C219_partial`, `Shop.C219_violation_price`, `Shop.C219_violation_row` |
| C220 | The cost of a fin plate joint is the sum of its parts | partial | `Shop.C220_partial`, `Shop.C220_violation` |
| C221 | Two of height, ridge height and slope determine a roof truss | partial | `Truss.C221_partial`, `Truss.C221_violation` |
| C222 | A generated roof truss has the shape that was asked for | partial | `Truss.C222_partial`, `Truss.C222_violation_ridge`, `Truss.C222_violation_single` |
| C223 | The braces of a generated roof truss form a planar web without gaps | partial | `Truss.C223_partial`, `Truss.uneven_web_viol` |
| C224 | A generated and supported roof truss is stable and statically determinate | partial | `Truss.C224_partial`, `Truss.C224_open_ends`, `Truss.uneven_mechanism_viol` |
| C225 | A generated roof truss is supported at both ends of its span | partial | `Truss.C225_partial`, `Truss.uneven_supports_viol` |
| C226 | Loads on the chords of a roof truss are the loads that were asked for | partial | `Truss.C226_partial`, `Truss.C226_uniform`, `Truss.C226_violation_single`, `Truss.C226_violation_double`, `Truss.C226_violation_long` |
| C227 | The joints of a roof truss match its members | partial | `Truss.C227_partial`, `Truss.C227_violation_ridge`, `Truss.C227_violation_open` |
| C228 | The gap of a K joint is the distance between its braces on the chord face | partial | `Truss.C228_partial`, `Truss.C228_face`, `Truss.C228_chord`, `Truss.C228_side`, `Truss.C228_violation_lean`, `Truss.C228_violation_ridge` |
| C229 | Moving a K joint moves its mirror image | partial | `Truss.C229_partial`, `Truss.C229_violation_ridge` |
| C230 | The utilisation of a Y joint of a truss compares the brace force with the resistance of the joint | partial | `Truss.C230_partial`, `Truss.C230_violation_stress`, `Truss.C230_violation_wide` |
| C231 | The utilisation of a K joint of a truss covers all failure modes | partial | `Truss.C231_partial`, `Truss.C231_violation_lost`, `Truss.C231_violation_raises` |
| C232 | The cost of a truss is the bill for its members and joints | partial | `Shop.C232_partial`, `Shop.C232_violation` |
| C233 | The welds around braces have full strength | partial | `Shop.C233_partial`, `Shop.C233_violation` |
| C234 | The detailed weights of a truss add up to its weight | proved | `Shop.C234` |
| C235 | The local axes of a beam in space are right-handed and follow the member and its reference point | partial | `Fem.C235_partial`, `Fem.C235_rounded_partial`, `Fem.C235_default`, `Fem.C235_plane_partial`, `Fem.C235_violation_plane` |
| C236 | A beam in space stores the energy of stretching, twisting and bending in both planes and resists no rigid motion | partial | `Fem.C236_symm`, `Fem.C236_energy`, `Fem.C236_psd`, `Fem.C236_global_partial`, `Fem.C236_violation_section` |
| C237 | Nodal loads of beams in space do the work of the line load | partial | `Fem.C237_y_partial`, `Fem.C237_violation_z`, `Fem.C237_violation_xg` |
| C238 | After linear statics every element knows its forces | partial | `Fem.C238_partial`, `Fem.C238_displacements`, `Fem.C238_success_partial`, `Fem.C238_violation`, `Fem.C238_violation_lines` |
| C239 | The second-order stiffness of a beam is that of the beam-column equation | partial | `Fem.C239_partial`, `Fem.C239_deflection`, `Fem.C239_below_buckling`, `Fem.C239_releases_partial`, `Fem.C239_violation_tension`, `Fem.C239_violation_hinges` |
| C240 | Loads in second-order analysis are the reactions of the clamped beam-column | partial | `Fem.C240_partial`, `Fem.C240_deflection`, `Fem.C240_tension`, `Fem.C240_violation_local`, `Fem.C240_violation_triangle`, `Fem.C240_violation_section` |
| C241 | Second-order analysis finds the equilibrium of the elements under their first-order forces | partial | `Fem.C241_partial`, `Fem.C241_violation_bars` |
| C242 | Buckling analysis returns load factors with modes in neutral equilibrium | partial | `Fem.C242_partial`, `Fem.C242_violation_bars` |
| C243 | Properties of thin-walled open sections are integrals over the wall | partial | `Cold.C243_partial`, `Cold.C243_constructor_partial`, `Cold.C243_torsion`, `Cold.C243_violation_int` |
| C244 | Splitting a wall changes no property of the section | partial | `Cold.C244_partial`, `Cold.C244_violation_torsion` |
| C245 | The shear centre and the warping constant of open sections | partial | `Cold.C245_partial`, `Cold.C245_warping_partial`, `Cold.C245_violation_units`, `Cold.C245_violation_plate` |
| C246 | Position, orientation and direction of an open section play no part | partial | `Cold.C246_motion_partial`, `Cold.C246_reverse_partial`, `Cold.C246_symmetric_partial`, `Cold.C246_reverse_seq`, `Cold.C246_symmetric_seq`, `Cold.C246_plate_viol` |
| C247 | Resistance of a single web to a transverse force | partial | `Cold.C247_partial`, `Cold.C247_violation_angle`, `Cold.C247_violation_stiffened`, `Cold.C247_length_partial`, `Cold.C247_violation_length`, `Cold.C247_flange_partial` |
| C248 | Resistance of sheeting with two or more webs to a transverse force | partial | `Cold.C248_code_partial`, `Cold.C248_length_partial`, `Cold.C248_shear_partial`, `Cold.C248_position_partial`, `Cold.C248_violation_support` |
| C249 | Resistances of self-tapping screws | partial | `Cold.C249_bearing`, `Cold.C249_mono`, `Cold.C249_shear_table`, `Cold.C249_violation_table`, `Cold.C249_validity_partial`, `Cold.C249_violation_validity`, `Cold.C249_violation_fire` |
| C250 | Strength and buckling factors of cold-formed parts | partial | `Cold.C250_fya`, `Cold.C250_distortional_partial`, `Cold.C250_violation_distortional`, `Cold.C250_edge`, `Cold.C250_violation_edge`, `Cold.C250_width_partial`, `Cold.C250_width_shapes`, `Cold.C250_violation_width`, `Cold.C250_axial`, `Cold.C250_violation_axial` |
| C251 | Geometry of trapezoidal sheets | partial | `Cold.C251_partial`, `Cold.C251_pitch_partial`, `Cold.C251_violation` |
| C252 | Rotational stiffness of the connection between sheeting and purlin | partial | `Cold.C252_uplift`, `Cold.C252_gravity_partial`, `Cold.C252_violation_gravity` |
| C253 | Linear and mixed-integer programs are solved as posed | partial | `Solve.C253_lp_partial`, `Solve.C253_milp_partial`, `Solve.C253_violation_nonlinear`, `Solve.C253_violation_types`, `Solve.C253_violation_integer`, `Solve.C253_violation_locked`, `Solve.C253_violation_flag` |
| C254 | SciPy solvers keep bounds and constraints | partial | `Solve.C254_slsqp`, `Solve.C254_slsqp_complete`, `Solve.C254_trust_partial`, `Solve.C254_trust_complete_partial`, `Solve.C254_violation_cobyla`, `Solve.C254_violation_trust`, `Solve.C254_violation_locked` |
| C255 | Steepest descent never goes uphill | partial | `Solve.C255_descent_partial`, `Solve.C255_violation_search` |
| C256 | Augmented Lagrangian method | partial | `Solve.C256_history`, `Solve.C256_optimal_partial`, `Solve.C256_violation_upper` |
| C257 | Grid search runs every combination once | partial | `Solve.C257_partial`, `Solve.C257_violation` |
| C258 | Creep of concrete | proved | `Comp.C258_creep`, `Comp.C258_monotone` |
| C259 | Concrete inside a tube | partial | `Comp.C259_partial`, `Comp.C259_violation`, `Comp.C259_cover`, `Comp.C259_new` |
| C260 | Buckling resistance of filled tubes | partial | `Comp.C260_partial`, `Comp.C260_monotone`, `Comp.C260_violation` |
| C261 | Plastic moment resistance of filled tubes | partial | `Comp.C261_partial`, `Comp.C261_violation` |
| C262 | Compression and bending of filled tubes | partial | `Comp.C262_partial`, `Comp.C262_violation`, `Comp.C262_sign` |
| C263 | Elastic composite beams | proved | `Comp.C263_stiffness`, `Comp.C263_coefficient`, `Comp.C263_creep` |
| C264 | Plastic resistance of composite beams | partial | `Comp.C264_partial`, `Comp.C264_violation`, `Comp.C264_slab` |
| C265 | Resistance of shear studs | partial | `Comp.C265_partial`, `Comp.C265_violation` |
| C266 | Truss sizing program and its optimum | partial | `Milp.C266_partial`, `Milp.C266_optimum_partial`, `Milp.C266_violation_bounds`, `Milp.C266_violation_return` |
| C267 | Scaling of the truss program | partial | `Milp.C267_partial`, `Milp.C267_violation_unsafe`, `Milp.C267_violation_lost`, `Milp.C267_violation_displacement` |
| C268 | Several load cases in the truss program | partial | `Milp.C268_partial`, `Milp.C268_violation` |
| C269 | Topology of trusses | partial | `Milp.C269_partial`, `Milp.C269_violation_forced`, `Milp.C269_violation_dangling` |
| C270 | Groups of members in the truss program | partial | `Milp.C270_partial`, `Milp.C270_violation` |
| C271 | Lists of profiles of the members | proved | `Milp.C271` |
| C272 | Section resistance in the structural problem | partial | `SProb.C272_partial`, `SProb.C272_viol`, `SProb.C272_default_viol`, `SProb.C272_end_viol` |
| C273 | Member stability in the structural problem | partial | `SProb.C273_partial`, `SProb.C273_viol`, `SProb.C273_sign_viol` |
| C274 | Deflection limits in the structural problem | partial | `SProb.C274_partial`, `SProb.C274_viol`, `SProb.C274_node_viol` |
| C275 | Section class limits in the structural problem | partial | `SProb.C275_partial`, `SProb.C275_viol`, `SProb.C275_class1_viol`, `SProb.C275_other_viol` |
| C276 | Geometry of truss joints in the structural problem | partial | `SProb.C276_k`, `SProb.C276_partial`, `SProb.C277_kt_viol` |
| C277 | Strength of truss joints in the structural problem | partial | `SProb.C277_partial`, `SProb.C277_y_partial`, `SProb.C277_viol`, `SProb.C277_kt_viol` |
| C278 | Choice of constraints in the structural problem | partial | `SProb.C278_partial`, `SProb.C278_viol`, `SProb.C278_alpha_viol` |
| C279 | Constraints of groups in the structural problem | partial | `SProb.C279_partial`, `SProb.C279_one`, `SProb.C279_viol`, `SProb.C279_twice_viol`, `SProb.C279_key_viol` |
| C280 | Design variables of the structural problem | partial | `SProb.C280_partial`, `SProb.C280_viol`, `SProb.C280_lost_viol`, `SProb.C280_errors` |
| C281 | Index variables turned into dimensions in the structural problem | partial | `SProb.C281_partial`, `SProb.C281_viol`, `SProb.C281_lost_viol`, `SProb.C281_mix_viol` |
| C282 | Seam strength of a stressed skin panel | partial | `Skin.C282_partial`, `Skin.C282_spacing_partial`, `Skin.C282_viol`, `Skin.C282_wide_viol`, `Skin.C282_eccs_viol` |
| C283 | Factor for the number of sheet fasteners | proved | `Skin.C283_closed`, `Skin.C283_table`, `Skin.C283_mono`, `Skin.C283_trough`, `Skin.C283_crest` |
| C284 | Distortion constant of a trapezoidal sheet | partial | `Skin.C284_partial`, `Skin.C284_pos`, `Skin.C284_viol`, `Skin.C284_viol_size`, `Skin.C284_table_viol` |
| C285 | Shear flexibility of a stressed skin panel | partial | `Skin.C285_partial`, `Skin.C285_pos_partial`, `Skin.C285_thickness_partial`, `Skin.C285_sheets`, `Skin.C285_viol` |
| C286 | Strengths of rafter fasteners, edge fasteners and sheet ends | partial | `Skin.C286_partial`, `Skin.C286_viol`, `Skin.C286_diameter_viol` |
| C287 | Symmetric simple trusses | partial | `T2.C287_partial`, `T2.C287_default_partial`, `T2.C287_viol` |
| C288 | Web pattern of simple trusses | partial | `T2.C288_chain`, `T2.C288_half_partial`, `T2.C288_viol`, `T2.C288_even`, `T2.C288_count_partial`, `T2.C288_default_partial`, `T2.C288_count_viol` |
| C289 | One joint per panel point | partial | `T2.C289_apart`, `T2.C289_webs`, `T2.C289_partial`, `T2.C289_viol` |
| C290 | Angle between web and chord | partial | `T2.C290_partial`, `T2.C290_viol` |
| C291 | Gap and eccentricity of K joints agree | proved | `T2.C291_gap`, `T2.C291_ecc` |
| C292 | Deflection and joint forces of a truss | partial | `T2.C292_partial`, `T2.C292_viol`, `T2.C292_forces_partial`, `T2.C292_forces_viol` |
| C293 | Changing the heights of a truss | partial | `T2.C293_partial`, `T2.C293_viol`, `T2.C293_flat_viol` |
| C294 | Members of a truss chord | partial | `T2.C294_partial`, `T2.C294_viol` |
| C295 | Stiffness and thickness of sandwich panels | proved | `Panels.C295_stiffness`, `Panels.C295_shear`, `Panels.C295_named` |
| C296 | Stiffness of sandwich panel fasteners | proved | `Panels.C296_positive`, `Panels.C296_strength`, `Panels.C296_face` |
| C297 | Support by sandwich panels | partial | `Panels.C297_support`, `Panels.C297_resistance`, `Panels.C297_own_partial`, `Panels.C297_viol` |
| C298 | Axis and stiffness of CLT slabs | partial | `Panels.C298_partial`, `Panels.C298_layer`, `Panels.C298_viol`, `Panels.C298_slab_viol` |
| C299 | CLT slabs do not influence each other | partial | `Panels.C299_partial`, `Panels.C299_viol`, `Panels.C299_dict_partial`, `Panels.C299_dict_viol` |
| C300 | Gross area of a cold-formed section | partial | `CF.gross_area_polygon`, `CF.gross_area_near`, `CF.gross_area_narrow_viol` |
| C301 | Notional widths of cold-formed sections | proved | `CF.notional_widths` |
| C302 | Effective web of a C section | proved | `CF.c_effective_web`, `CF.c_effective_full` |
| C303 | Effective flanges of a C section | partial | `CF.c_free_flange`, `CF.c_lipped_flange_viol`, `CF.c_free_bottom_viol` |
| C304 | Slender lips and the gross section | partial | `CF.c_top_lip_viol`, `CF.c_bottom_lip_viol`, `CF.c_gross_changes_viol` |
| C305 | Effective section of a Z section | partial | `CF.z_effective_viol`, `CF.z_effective_partial` |
| C306 | The effective section does not depend on earlier queries | partial | `CF.effective_fresh`, `CF.effective_history_viol` |
| C307 | Stiffness that holds an edge stiffener | partial | `CF.edge_stiffness_rule`, `CF.edge_stiffness_unequal`, `CF.edge_stiffness_viol` |
| C308 | Distortional buckling slenderness | proved | `CF.distortional_rule`, `CF.distortional_stiffer` |
| C309 | Stress ratio of the web | proved | `CF.stress_ratio_linear`, `CF.stress_ratio_sign` |
| C310 | Axial resistance of cold-formed sections | proved | `CF.axial_bounds`, `CF.axial_more_slender` |
| C311 | Lateral stiffness of purlins | partial | `CF.purlin_series`, `CF.purlin_section`, `CF.purlin_load_viol` |
| C312 | Catalogue of Z purlins | partial | `CF.ruukki_formed`, `CF.ruukki_missing_viol` |
| C313 | Sharp corners are used only where the rule allows it | proved | `CF.constructor_rule` |
| C314 | Correction for rounded corners | partial | `CF.area_delta_viol` |
| C315 | Section properties of rolled sections by dimensions | proved | `IProf.two_descriptions`, `IProf.section_integrals`, `IProf.section_order`, `IProf.catalogue_sections` |
| C316 | Resistances of steel cross-sections | partial | `IProf.section_resistance`, `IProf.thick_strength_viol` |
| C317 | Named materials are in consistent units | partial | `IProf.steel_materials`, `IProf.stainless_viol` |
| C318 | Units convert numbers without memory | partial | `IProf.unit_round_trip`, `IProf.length_unit_viol`, `IProf.length_unit_partial` |
| C319 | Cold-formed members | partial | `IProf.cold_member_strength`, `IProf.cold_member_viol`, `IProf.required_stiffness` |
| C320 | Average yield strength of cold-formed sections | partial | `CF.average_strength`, `CF.average_strength_viol` |
| C321 | A group of variables has one variable for each attribute | partial | `Grp.group_variables`, `Grp.group_drop_viol`, `Grp.group_drop_viol_witness` |
| C322 | Variables of a group start inside their bounds | partial | `Grp.group_variables`, `Grp.group_start_viol`, `Grp.group_start_viol_witness`, `Grp.index_start_viol` |
| C323 | Groups that cannot work are refused | proved | `Grp.group_refused` |
| C324 | Substituting a variable of a group | partial | `Grp.group_substitute`, `Grp.index_substitute`, `Grp.index_attributes_viol`, `Grp.index_attributes_viol_witness` |
| C325 | Eccentricity problem of a tubular truss | partial | `Ecc.ecc_variables`, `Ecc.gap_constraints`, `Ecc.gap_constraints_viol`, `Ecc.ecc_objective` |
| C326 | Vertical braces stay vertical | partial | `Ecc.vertical_braces`, `Ecc.vertical_ridge_viol`, `Ecc.vertical_ridge_viol_witness` |
| C327 | The ant colony runs to its end | partial | `Aco.aco_runs`, `Aco.aco_start`, `Aco.aco_members_viol`, `Aco.aco_top_viol` |
| C328 | The ant colony chooses for each variable one of its own values | partial | `Aco.aco_values_partial`, `Aco.aco_values_viol` |
| C329 | The ant colony stops early only after iterations without improvement | proved | `Aco.aco_stop` |
| C330 | Adding variables to a problem | partial | `Bench.add_variable_spec`, `Bench.set_variables`, `Bench.add_variable_viol` |
| C331 | The three bar truss with areas from a list accepts areas | partial | `Bench.three_discrete_partial`, `Bench.three_discrete_viol` |
| C332 | Constraints of the ten bar truss | proved | `Bench.ten_bar_feasible` |
| C333 | Two formulations of the ten bar truss agree | partial | `Bench.simple_ten_feasible`, `Bench.simple_ten_weight`, `Bench.ten_bar_agree_viol`, `Bench.ten_bar_order_viol` |
| C334 | Constraints of the three and fifteen bar trusses | partial | `Bench.three_bar_feasible`, `Bench.fifteen_bar_feasible`, `Bench.three_names_viol` |
| C335 | Weights of the benchmark trusses | partial | `Bench.ten_bar_weight`, `Bench.three_bar_weight`, `Bench.old_three_weight_viol` |
| C336 | Every bar of the older three bar problem is checked | partial | `Bench.old_three_partial`, `Bench.old_three_cons_viol` |
| C337 | Binary variables of the three bar truss choose one area | partial | `Bench.binary_partial`, `Bench.binary_viol` |
| C338 | Geometry of the fifty-two bar truss | proved | `Bench.fifty_two_nodes`, `Bench.fifty_two_bars` |
| C339 | The fifty-two bar problem has its variables and constraints | partial | `Bench.fifty_two_partial`, `Bench.fifty_two_viol` |
| C340 | A simple truss has the members that were given | partial | `STruss.truss_members`, `STruss.truss_accepts`, `STruss.truss_short_viol`, `STruss.truss_type_viol` |
| C341 | A stable truss has exactly one response and its member forces balance the loads | proved | `STruss.truss_response`, `STruss.truss_equilibrium`, `STruss.truss_superposition` |
| C342 | The example trusses are statically sound | partial | `STruss.three_bar`, `STruss.ten_bar`, `STruss.fifteen_bar`, `STruss.three_response`, `STruss.ten_response`, `STruss.ten_statics`, `STruss.ten_mechanism_viol` |
| C343 | A Vierendeel truss has the geometry that was asked for | partial | `Vier.vier_nodes`, `Vier.vier_members`, `Vier.vier_supports`, `Vier.vier_panels_viol`, `Vier.vier_outline_viol` |
| C344 | Joints of a Vierendeel truss | partial | `Vier.vier_joints_viol`, `Vier.vier_joints_partial` |
| C345 | Loads and weight of a Vierendeel truss | partial | `Vier.vier_uniform`, `Vier.vier_point`, `Vier.vier_weight`, `Vier.vier_chord_viol` |
| C346 | Columns and truss of a portal frame fit together | partial | `Portal.portal_geometry`, `Portal.portal_replace_viol`, `Portal.portal_order_viol`, `Portal.portal_depth_viol` |
| C347 | The detailed weight of a portal frame includes its columns | partial | `Portal.portal_weight_viol` |
| C348 | Every uniform load of a portal frame acts once in the analysed model | partial | `Portal.portal_total`, `Portal.portal_column_partial`, `Portal.portal_later_partial`, `Portal.portal_double_viol`, `Portal.portal_first_viol` |
| C349 | The linear program of a truss describes its plastic designs | partial | `TOpt.lp_feasible`, `TOpt.lp_objective`, `TOpt.lp_total`, `TOpt.lp_default_viol` |
| C350 | The linear program bounds the weight of elastic designs | proved | `TOpt.lp_elastic`, `TOpt.lp_bound` |
| C351 | Scaling of a truss design | partial | `TOpt.scale_partial`, `TOpt.scale_stuck_viol`, `TOpt.scale_sign_viol`, `TOpt.scale_below_viol`, `TOpt.stress_cases_viol` |
| C352 | Fully stressed design | partial | `TOpt.fsd_partial`, `TOpt.fsd_stale_viol`, `TOpt.fsd_fresh_viol`, `TOpt.fsd_group_viol`, `TOpt.fsd_frame2d_viol` |
| C353 | Bolt rows of an optimized end plate keep their distances | partial | `EPOpt.rows_apart_partial`, `EPOpt.rows_clear`, `EPOpt.after_shear_viol`, `EPOpt.flush_viol` |
| C354 | The top row keeps its distance from the edge of the end plate | partial | `EPOpt.top_edge_partial`, `EPOpt.edge_fixed_viol` |
| C355 | Optimized bolts sit where the design variable puts them | partial | `EPOpt.bolts_partial`, `EPOpt.bolts_clear`, `EPOpt.stale_viol`, `EPOpt.plate_fixed_viol` |
| C356 | Evaluation of an end-plate problem does not depend on history, and starts from the given joint | partial | `EPOpt.eval_history`, `EPOpt.start_partial`, `EPOpt.made_consistent`, `EPOpt.start_made_partial`, `EPOpt.start_width_viol`, `EPOpt.thickness_viol` |
| C357 | Resistance and stiffness constraints of end-plate problems mean what they say | partial | `EPOpt.forces_partial`, `EPOpt.negative_moment_viol`, `EPOpt.pinned_viol` |
| C358 | The forces reported for a member are the largest of its load cases | partial | `FDesign.max_forces_partial`, `FDesign.nodal_forces_partial`, `FDesign.last_case_viol`, `FDesign.node_value_viol` |
| C359 | Design forces by load case | partial | `FDesign.design_force_partial`, `FDesign.ned_med_partial`, `FDesign.jump_viol`, `FDesign.shear_zero_viol` |
| C360 | Utilization and verdict of a member | partial | `FDesign.utilization_partial`, `FDesign.verdict_partial`, `FDesign.verdict_viol` |
| C361 | Choice of a profile for a member | partial | `FDesign.optimum_partial`, `FDesign.family_partial`, `FDesign.two_cases_viol`, `FDesign.same_ratio_viol`, `FDesign.no_fit_viol`, `FDesign.family_viol` |
| C362 | Choice of profiles for a whole frame | partial | `FDesign.pass_partial`, `FDesign.optimize_single_partial`, `FDesign.last_member_viol` |
| C363 | Names and heights of profiles | partial | `FDesign.rename_partial`, `FDesign.height_partial`, `FDesign.rename_viol`, `FDesign.rename_chs_viol`, `FDesign.letter_viol`, `FDesign.height_ignored_viol`, `FDesign.height_he_viol`, `FDesign.height_twice_viol` |
| C364 | Length and weight of a member with several spans | partial | `MSpan.length_le`, `MSpan.straight_partial`, `MSpan.bend_viol` |
| C365 | Points and local coordinates of a member with several spans | partial | `MSpan.points_partial`, `MSpan.points_all_partial`, `MSpan.short_list_viol`, `MSpan.local_partial`, `MSpan.local_bend_viol`, `MSpan.before_viol` |
| C366 | Section, buckling lengths and elements of a member with several spans | partial | `MSpan.spans_agree_partial`, `MSpan.set_last`, `MSpan.generate_partial`, `MSpan.one_element_viol` |
| C367 | Design of a member with several spans | partial | `MSpan.design_partial`, `MSpan.allowable_viol`, `MSpan.last_case_viol`, `MSpan.optimum_first_partial`, `MSpan.optimum_none_viol`, `MSpan.max_utility_viol` |
| C368 | Nodes and members in the file for Robot | partial | `Export.robot_geometry_partial`, `Export.robot_written_partial`, `Export.robot_member_rows_partial`, `Export.robot_space_viol`, `Export.robot_twice_viol`, `Export.robot_missing_viol` |
| C369 | Supports, releases, section names and file name in the file for Robot | partial | `Export.robot_supports_partial`, `Export.robot_support_rows_partial`, `Export.robot_member_rows_partial`, `Export.robot_space_support_viol`, `Export.robot_general_support_viol`, `Export.robot_releases_partial`, `Export.robot_he_partial`, `Export.robot_chs_viol`, `Export.robot_name_partial`, `Export.robot_name_viol` |
| C370 | Nodes, elements, sets and sections in the input file for Abaqus | partial | `Export.lines_of_set`, `Export.abaqus_geometry_partial`, `Export.abaqus_sets_partial`, `Export.abaqus_symm_partial`, `Export.abaqus_no_section_viol`, `Export.abaqus_frame_viol`, `Export.abaqus_section_viol`, `Export.abaqus_long_line_viol`, `Export.abaqus_twice_viol` |
| C371 | Releases, supports and monitored nodes in the input file for Abaqus | partial | `Export.abaqus_releases_partial`, `Export.abaqus_single_viol`, `Export.abaqus_supports_partial`, `Export.abaqus_codes_partial`, `Export.abaqus_xsymm_viol`, `Export.abaqus_general_viol`, `Export.abaqus_monitored_partial`, `Export.abaqus_monitored_viol` |
| C372 | Stiffness of a bolt row from its parts | proved | `Bolts.C372_components`, `Bolts.C372_group`, `Bolts.C372_weakest`, `Bolts.C372_stiffener` |

### Methods planned for C01-C40

| id | model | method |
|----|-------|--------|
| C01 | `nodal_dofs`, `init_dofs` as list folds over nodes | invariant by induction on nodes |
| C02 | fold of `K[ix_(q,q)] += ke` with numpy last-write-wins semantics | induction over elements, no-duplicate lemma |
| C03 | local matrices of rod, beam, released beam, semi-rigid beam, spring | sums of squares; congruence; C02 |
| C04 | transformation + stiffness | ring identities |
| C05 | fold of load vector | induction, permutation invariance |
| C06 | REM branch of `linear_statics` with `solve` as parameter | index bookkeeping proofs |
| C07 | same, plus injectivity of reduced matrix | uniqueness |
| C08 | rod | algebra |
| C09 | `equivalent_nodal_loads` of the beam | algebra (moment/force resultants) |
| C10 | static condensation | block elimination lemma |
| C11 | global/local line load with factor | negation for global direction + partial for local |
| C12 | `floc` dictionary state machine | negation + partial for one load |
| C13 | model state machine with `dofs` cache | negation + partial |
| C14 | `shape_fun` | negation + partial (L = 1 and functions 0..2) |
| C15 | problem state machine | induction over zip |
| C16 | `feasible` | iff |
| C17/C18 | `conlin_fun`, `mma_fun`, asymptote update | derivative + convexity proofs, history invariant |
| C19,C21 | BnB tree search | invariant "every open feasible point lies in an open node or is not better than the incumbent" |
| C20 | `OptSolver.solve` loop | fold invariant |
| C22,C23 | penalty / multiplier functions | algebra; negation where the code differs |
| C24,C28 | locking | negation + partial |
| C25 | discrete neighbours | list max/min |
| C26 | PSO state machine with oracle random numbers | invariant |
| C27 | tightening | interval arithmetic; negation for `>=` rows |
| C29–C31 | EN 1993-1-1 classification | case analysis; negation for fy < 235 |
| C32,C39 | buckling reduction factor, member resistance | real analysis |
| C33 | Cm factor | case analysis |
| C34 | fire tables | negation on (100,200), partial elsewhere |
| C35–C37 | EN 1993-1-5 | real analysis; negation for psi = 1 supported edge |
| C38 | RHS attribute machine | history invariant; negation for shear area |
| C40 | member design | fold invariant |

## Disagreements between code and properties, and what partial claims leave open

Each line is the note of the manifest. A theorem whose name contains `violation` or `violated` proves the negation of the property by a concrete witness or for a whole family of inputs; the theorems with the suffix `_partial` state what holds.

* **C04** Rigid-body motion causes no forces: Holds for translations and for rotations when the stored length equals the true length; the code rounds the length to 3 decimals, and C04_violation exhibits non-zero forces under a rigid rotation.
* **C06** Linear static solution satisfies the supports and equilibrium: support_method='REM' proved for models whose stored displacements are zero at supported dofs; the default support_method always raises (C06_violation_default); a dof supported after an analysis keeps its old displacement (C06_violation_stale).
* **C09** Equivalent nodal loads are statically equivalent to the member load: Proved for transverse local loads and for global loads with factor 1; axial local loads are ignored by the code and the factor is not applied consistently (violations).
* **C11** Line-load effect is proportional to the load scale factor: Local directions proportional; global directions scale with the square of the factor.
* **C12** Several line loads on one member superpose in the member forces: Only one line load per member and case superposes; with several the last one overwrites.
* **C13** Analysis after editing the model uses the current model: Numbering is never renewed once done.
* **C14** Beam shape functions interpolate the nodal values: (see the theorem comments)
* **C18** MMA approximation is exact to first order and lives inside its asymptotes: Approximation and asymptotes proved for all histories; the lower sub-problem bound is strictly inside only for a nonnegative lower asymptote: with a negative one the code's abs() puts it on or beyond the asymptote (witness).
* **C19** Branching never loses a discrete solution: Every successful branching partitions the allowed points and cuts off the relaxed one. Branching raises for integer variables, for values between 1e-4 and 1e-3 from an allowed one, and with continuous variables (witnesses).
* **C20** The solver's best-so-far record is feasible and never gets worse: Holds for the points visited by the iterations of a new solver object; fails for the starting point, when nothing admissible is visited, and on reuse (witnesses).
* **C21** Branch and bound returns a global optimum: Holds for every selection order with valid oracles when linear constraints are '<' or '='; false with '>' constraints (witnesses: optimum lost by tightening, infeasible incumbent accepted).
* **C22** Penalty functions charge nothing for feasible designs and never reward violation: Zero at feasible points for all types; nonnegativity fails for '>' constraints in the exact penalty and for odd exponents with equality constraints (witnesses).
* **C23** Multiplier updates keep inequality multipliers nonnegative and per-bound: Nonnegativity over all histories proved; the upper bound's multiplier is computed from the lower bound's (witness).
* **C24** Objective evaluation honours locked variables: The objective function receives the right full vector and locked variables keep their values; but when a locked variable precedes a free one the free variable gets the wrong value (witness).
* **C26** Particle swarm respects the design space and improves monotonically: Velocity limits and monotonicity hold for all problems and random numbers; positions stay in bounds unless the problem is discrete and the first variable's values exceed another variable's bounds (witness); 'feasible' means constraint violation within tolerance only without '>' constraints (witness). Personal bests carry the values of the remembered point and are no worse than the present one; a start without a feasible particle is attracted to the least infeasible; improvements reset the count of idle iterations.
* **C27** Bound tightening removes no feasible design: Holds for '<' and '=' rows with coefficients 0 or above 1e-9; false for '>' rows and tiny coefficients (witnesses).
* **C28** Locked variables do not move: Holds for all kinds except index variables, whose stored index changes although locked (witness).
* **C31** Classification uses the material's epsilon for every steel grade: Holds from 235 MPa on; below, epsilon is taken for a yield strength and slender parts are reported as class 1.
* **C33** The equivalent moment factor stays within its code range and ignores member direction: The range holds for all inputs; the symmetry fails when one end moment is nonzero but below the tolerance 1e-6.
* **C34** Fire reduction factors exist and decrease over the whole temperature range: Proved for 20-100 and 200-1200 degrees and for bolts 20-1000; the code raises KeyError between 100 and 200 degrees.
* **C37** Buckling factors follow the code table over the whole stress-ratio range: Table values, positivity and strict monotonicity hold except for uniform compression of an outstand element with sigma1="support" (23.8 instead of 0.43) and stress ratio -3 of an internal element (no value); both are the violation theorem.
* **C38** Hollow-section properties stay consistent under dimension edits: Edits of any length give the object of a fresh construction (C38_partial). The clause on shear areas is false: for every non-square section the stored pair does not add up to the area (C38_violation); the shear area along the width is overwritten by half the area when the dimensions are assigned at the end of the constructor.
* **C40** The member utilisation reported by design covers every check: Proved for members not susceptible to lateral-torsional buckling and loaded in one plane: design is the maximum of 0 and all utilisations, the beam-column class being that for the moment of the last section, the moment factor being 0.9 with sway and that of Table B.3 otherwise; and for members susceptible to it without compression, with the lateral-torsional check. Negation: with lateral-torsional buckling, compression and bending it raises AttributeError; forces in the other plane are ignored; no sections raises ValueError.
* **C41** Constraints are evaluated with an up-to-date structural analysis: Invariant over all histories of problem-level calls; fails when a variable is locked or substituted with a value directly (witness).
* **C42** A constraint sees the design it is asked about: Holds along every history once values and structure agree; a new problem does not write the initial values (witness).
* **C43** Linearisation returns first-order difference models and leaves the problem as it was: Proved for unlocked continuous/integer/boolean/discrete variables, functions of the explicit values and points inside the bounds. The code breaks the rest: zero rows for analysis-based constraints with a user gradient, stale analysis afterwards, AttributeError for index variables, misaligned linear rows with locked variables.
* **C44** An objective that needs an analysis sees the analysis of the design it is asked about: Violated: the analysis is made before the substitution (witness).
* **C45** The recorded starting point is the first design substituted: Holds while the current vector is not all zero; overwritten after the zero vector (witness).
* **C46** Multiplier update is the gradient of the augmented Lagrangian: Proved for all constraint types and lower bounds; fails for upper bounds because of the mixed-up multiplier (witness).
* **C48** The recorded iteration history lists the visited points: Proved for steps that assign a new array; for in-place steps the exact (wrong) history is characterised.
* **C49** Solving leaves the caller's starting point alone: Proved unless a float array is given to an in-place solver, in which case it is overwritten by the first visited point.
* **C51** Swarm designs take allowed values: Holds if all variables are discrete with the same values; false for integer variables and for different value sets (witnesses).
* **C52** The equivalent moment factor is the one of Table B.3: The code gives 0.95 / 0.90 instead of 0.4 when the midspan moment is zero.
* **C53** Reported member forces follow beam theory and are in equilibrium with the member load: Missing: local loads along the member (ignored by the code, C09_violation_axial), global loads with a factor other than 0 or 1 (C11_violation), several loads on one member (C12_violation).
* **C56** The stress-strain curve of steel in fire is a continuous curve of the code's shape: Proved outside the gap of C34 and below 1200 degrees; the code raises in the gap and at 1200 degrees.
* **C57** Unprotected steel heats up along the heat balance and never gets hotter than the fire: Proved for the two built-in fire curves and positive steps, the bounds on the temperature for initial temperatures from 0 to 20 degrees and short steps. Other gas functions raise UnboundLocalError; with the standard curve a step that is not positive never ends; the elongation falls by up to 0.0000084 at 750 degrees.
* **C58** The discreteness measure is the distance to the nearest allowed value: Violations: proved for all values and nonempty lists (an empty list raises ValueError). Acceptance: proved for lists, and for integers up to 100000; beyond that the relative tolerance of math.isclose accepts values up to half a unit from an integer. Lists use 0.001 for the violation and 0.0001 for acceptance.
* **C59** Iterates never leave the bounds: Proved for steps in place followed by clipping (base class, SLP). A solver that assigns the computed array (MMA) is not clipped by the driver; MISLP, whose clipping is commented out, is not modelled.
* **C61** Interaction of axial force and bending follows Annex B: In class 3 and 4 the code's kyy and kzz exceed those of the table for slenderness below 1 (safe side). The utilisation has no interaction factor for bending about the weak axis.
* **C63** Shear buckling resistance is bounded, monotone and follows Table 5.1: Everything but monotonicity for rigid end posts, which fails at slenderness 1.08 (jump up by 0.0011, bounded by 0.0012). The web resistance is stated for non-rigid end posts; the partial safety factor is 1.0 as in constants.py.
* **C66** The section properties of rolled I-sections are those of the shape: All clauses except the last hold. The painted surface is smaller than the outline by twice the web thickness for every section (C66_violation), which lowers the section factor used in fire. Torsion and warping constants are not covered.
* **C67** The cross-section class follows the slenderness limits of EN 1993-1-1 for the forces acting: Limits proved for compression, bending, and (I-sections) both. Negation: any tension gives class 1; webs of hollow sections are never checked in compression and bending; the class of a symmetric I-section depends on the sign of the moment.
* **C68** The cross-section check accepts exactly the forces EN 1993-1-1 6.2 allows: Equivalence with axial, shear and N-M interaction proved with the web share of the y axis. Negation: no reduction for shear; ZeroDivisionError for rolled I-sections about z; wrong share (unsafe) for hollow sections about z.
* **C70** Member design does not depend on the order in which sections were added: Proved when the sections added last lead to the same class. Negation with a hollow section: same forces, other order, other utilisation.
* **C71** Larger forces never lower the utilisation of a cross-section: Proved below the axial resistance within one class. Negation: for every profile the utilisation drops at the axial resistance.
* **C72** Ultimate limit state load combination: Proved: the result is one EN 1990 combination on every line and in both directions up to rounding, and its sum of all load values is the largest; with all loads in y direction on one line, its load is the largest; a result exists with a permanent load. Violated: on a given line another combination can be larger; a suction load alone raises TypeError.
* **C73** Serviceability and accidental load combinations: Proved for combiners with variable loads: frequent and accidental results are the combination with the largest sum of values, the quasi-permanent result is the combination, the characteristic result is one characteristic combination. Violated: the characteristic combinations are compared with psi2 instead of psi0, so a smaller one can be returned. Without variable loads only the model covers the serviceability results.
* **C74** Adding loads to a combiner and reducing imposed loads: Adding and the factor of one reduction are proved for all inputs; the reduction is not idempotent (violation).
* **C76** Wind zones and pressures on walls: Proved for walls over 10 m2; smaller walls get zero pressure (violation).
* **C77** Wind zones and pressures on flat and monopitch roofs: Proved for flat roofs without parapets whose depth is at least e/2; violation: negative zone width for shallow roofs, zero pressures with parapets and on monopitch roofs.
* **C78** Pressure coefficients of monopitch roofs: Proved for wind on the low eave from 15 degrees and on the high eave from 5 degrees; between 5 and 15 degrees the values for the low eave are extrapolated (violation).
* **C82** Axial force in the gap of a K joint: Only an upper bound for chords in tension; the sign of the brace component is wrong there, chords in compression always raise AttributeError, and the tension force is reported as zero when the tension brace is listed second (violation).
* **C83** Design of a K gap joint: The resistance is the smallest of the failure modes; design itself raises for every joint (the chord ratio is passed as a data type) and so does adding a plate (violation).
* **C84** Resistances of Y joints between hollow sections: Chord face and side wall only for chord faces not in compression: the chord stress factor is used as an exponent, so the resistance is too large whenever it is below 1, and independent of the chord force up to S355 (violation).
* **C85** Design of a Y joint: Width ratios below 0.85 and equal widths; in between the chord face resistance is taken at the actual width ratio, so the resistance is too large (violation).
* **C86** Side wall buckling under a compressed brace: Only for a force entered explicitly with its sign and slendernesses above 0.2; the joint stores the absolute value, so compression is treated as tension; below 0.2 the strength exceeds yield; X joints raise AttributeError under compression (violation).
* **C88** A bolt of a size, class and length: Proved when a partially threaded bolt of the price list is long enough, with head, nut and washer of every constructed bolt. Negation: otherwise the loop reaches the key 'max' and raises TypeError, so a fully threaded bolt or the warning never occurs.
* **C89** Changing the size of a bolt: Proved for every size for which construction succeeds, and that the setter succeeds only then. Negation: after KeyError the bolt has the new diameter with the old stress area; after TypeError it has the new size with the old length.
* **C90** Shear resistance of bolts: Proved for the method. Negation for the function: the two cases are swapped.
* **C91** Bearing resistance of bolts: Proved for the method. Negation for the function: the partial factor is missing.
* **C92** Bolts in shear and tension: Proved together with the check of the tension alone. Negation: the utilisation alone accepts tension up to 1.4 times the resistance.
* **C95** Full-strength fillet welds: Proved for S235, S275, S355 and S420. Negation: S460M, S460Q, S500 and S700 raise KeyError.
* **C96** Interaction of web compression with shear: Proved for 0 to 1 and 2. Negation: between 1 and 2 the factor grows, from 1.5 on above 1; outside 0 to 2 it is 0.
* **C97** Column web in transverse tension and compression: Proved for transformation parameters from 0 to 1 and for 2. Between 1 and 2 the library interpolates wrongly (see C96): between 1.5 and 2 the web in tension is given more than its effective width at yield (C97_violation, for all sections and lengths).
* **C101** The moment resistance is the largest of all admissible distributions: Proved without groups for rows listed from the top downwards above the centre of compression. With overlapping groups it is false for some orders (C108_violation: the same groups in another order give a larger admissible moment).
* **C102** Only rows in tension contribute to the moment: Proved without shear rows. On a new joint each shear row counts with a force of -1 N times its lever arm (C102_violation, end_plate_joint.py 596-598, en1993_1_8.py 406).
* **C103** The moment resistance exists with and without stiffeners: Proved without stiffeners and groups. With a stiffener at the compressed flange, or one at the tension flange and a row in tension, AttributeError is raised always (C103_violation).
* **C104** Effective lengths follow the dimensions: Proved for a new T-stub and just after the resistance is evaluated. After one evaluation the length stays that of the old dimensions (C104_violation, en1993_1_8.py 1257-1281).
* **C105** Initial stiffness is that of the springs of the joint: Proved for two or more rows in tension. With a single one UnboundLocalError is raised, and EndPlateJoint.keq counts shear rows (C105_violation).
* **C106** Shear resistance of end-plate joints is safe for every bolt: Proved: sum over rows, and the interaction up to 99.96 % of the tension resistance. At full tension the interaction is violated (0.286 + 1/1.4 > 1), bearing is computed but not used, and before the moment resistance is evaluated rows other than shear rows count as 0 (C106_violation).
* **C107** Column web panel with stiffeners: Proved when the stiffeners are not stronger than the column flanges. Otherwise the bound 4 Mpl,fc lacks the division by the distance and the resistance is too large (C107_violation, end_plate_joint.py 395-412).
* **C108** The order of the groups does not matter: Proved for groups without common rows. For two overlapping groups the moment differs by more than 19 % (C108_violation).
* **C109** Every height given to an end-plate joint gets a bolt row: Proved when all three lists have the same length. With the default row types no row is made and the moment resistance is 0 without an error (C109_violation, end_plate_joint.py 103-131).
* **C110** Bolt group of a fin plate in shear: Proved for one column of two or more bolts and for two columns; the elastic distribution of the specification is shown to be in equilibrium with force and moment. Negation: a single bolt gets a positive resistance although it cannot balance the moment; three bolts side by side get less than the elastic group carries, as the second moment is always that of two columns.
* **C111** Bearing in fin plate and beam web: Proved for one column of two or more bolts and for two columns with the resistance of a bolt at the edge for every bolt, and with the upper edge distance of the plate for the web as well. Negation: an inner bolt can be loaded above its resistance; the resistance of the web is the same in a beam too shallow to contain the bolts.
* **C115** Block tearing of fin plate and beam web: Proved for two columns and for one column with the distance of columns zero. Negation: one column with a positive distance gets more, three or more columns get less.
* **C116** Check of the distances of holes of a fin plate: Exactly the checked distances. Negation: lower edge of the plate and edge of the beam are not checked, two columns at the same place pass, a single column is rejected for the unused distance of columns.
* **C117** Reading a distance does not move holes: Proved without vertical symmetry; with it the holes are centred, other distances stay and a second reading changes nothing. Negation: the first reading moves holes that are not centred.
* **C118** Bounds and move limits of sequential linear programming: SLP: bounds for every solver answer, move limits for the range type and for non-negative values with the relative type. Negation: with relative limits a negative variable freezes the whole design and a variable at zero stays at zero; MISLP rounds to thousandths out of the bounds. No positive theorem on the move limits of MISLP.
* **C120** Relaxation keeps the linear problems solvable: Holds while the bound of beta is not below the violation, range type. Negation: the bound follows the last relaxation; a run from a feasible design ends at an infeasible one and stays there; an infeasible linear problem stops the design for good.
* **C121** Linearised constraints hold in the sense of their type: Rows of type '<' (SLP, range type) and '<', '=' (MISLP, before rounding). Negation: SLP treats '>' and '=' as '<'; MISLP leaves '>' out.
* **C122** MISLP gives discrete variables allowed values: Values that are multiples of a thousandth, no binary variable in the problem. Negation: rounding to thousandths misses all other values; with a binary variable discrete variables are continuous.
* **C123** MISLP can reach neighbouring values: At least two increasing values within the bounds. Negation: a single value raises IndexError.
* **C125** Result of the discrete neighbourhood search: Completed runs give a feasible design below 10000, and more iterations a strictly better one. Negation: the first step may worsen a feasible start; the loop never ends once nothing is better or if all objectives are at least 10000; when time is up the pair is returned the other way round, with an unchecked design.
* **C126** Every variable of the discrete neighbourhood search has its own bounds: Equal lists. Negation: the bound of the first variable is used for all: larger indices are never found, indices beyond a shorter list raise ValueError.
* **C127** Neighbourhood search leaves the bounds of the variables alone: Holds if an action is given. Negation: after unsuccessful inner searches an index variable keeps the narrowed bounds. The inner solver is any function of bounds and start.
* **C128** Neighbourhood search uses improvements: Every move is to a better design. Negation: better designs that keep the value of one variable are dropped.
* **C129** Values of the second phase: Upper limit at least 1 (one value fewer above than below). Negation: upper limit 0 leaves the nearest value out; values of index variables are taken for positions and raise.
* **C130** Result of the genetic algorithm: New object, all variables free, bounds that are multiples of a thousandth. Negation: other bounds give a value that is not the fitness of the design; a reused object returns the result of the earlier problem.
* **C131** Starting point of the genetic algorithm: Earlier runs with the same number of variables. Negation: the counter is shared by all objects; after a run with another number of variables the starting point is rotated.
* **C133** The best individual survives a generation: The stored individual stays if the number of selected individuals is even. Negation: for odd numbers it is paired; the stored individual is an object of the list that is mutated later in the loop.
* **C134** Pheromone of the ant colony: Positive fitness, at least as many ants as are rewarded. Negation: with fewer ants the first iteration raises IndexError.
* **C135** Result of the ant colony: New object; with at most nmax + 1 iterations all are carried out. Negation: a reused object returns the result of the earlier problem.
* **C136** Charring depth over time: Zero at the start and monotone for bare sides and for every prepared protection, except at the very instant when a protection fails that chars earlier: the branch for t = t_f falls through to the formula of late times (d_char_n tests t_f < t), so the depth there exceeds that of every later time up to the middle of the next phase (C136_violation).
* **C137** Fire protection never makes charring worse: For softwood rates and protections that fail when charring starts or that meet the stated condition on the failure time; every board of the library does (C137_boards), and so does a wooden board (C137_wood). A protection with t_ch = 5 and t_f = 15 makes 30 minutes worse than no protection (C137_violation).
* **C138** Residual section in fire: For protections given to the constructor; sizes later are bounded by the maximum of the size and 1e-5, because sizes are clamped there. A protection set later is never prepared, so width and depth raise TypeError from the start of charring on (C138_violation).
* **C139** Charring rates: Rates of softwood, and of hardwood from 450 kg/m3 when asked directly. A section of a hardwood grade takes the rate of softwood (C139_violation); hardwood between 290 and 450 kg/m3 raises TypeError (C139_violation_gap) although the standard interpolates.
* **C140** Depth of tapered beams: Single tapers always, double tapers with an apex at least as deep as the ends, pitched cambered beams with the depths h0/cos(alpha) and (h0 + x_ap L tan(alpha))/cos(alpha). A double taper with a shallower apex has ends below the apex depth (C140_violation); a pitched cambered beam is deeper at its start than given (C140_violation_belly).
* **C141** Small elements follow their beam: The small elements follow the depth at the start through any sequence of settings. The depth, area, second moments and section moduli of the beam itself do not follow it (C141_violation), and a new width does not reach the small elements (C141_violation_width). C141_elements: each element has area and second moments of the residual rectangle in its middle.
* **C142** Volume of tapered beams: Exact for single tapers and any number of elements and for double tapers with the apex between two elements, less the layer of depth lost to fire. V_tot counts the lost depth (C142_violation); with the apex inside an element the sum is too large (C142_violation_apex).
* **C143** Depth of curved beams: Curved beams whose upper face is at least as steep as the lower face, and all pitched curved beams. With a level upper face and a lower face of 30 degrees the depth is not symmetric (C143_violation).
* **C145** Size effect of timber: Bounds always; depth effect without axial force. The largest absolute axial force is taken for tension, so compression raises the bending strength of a narrow deep beam (C145_violation); with axial force and bending the factor grows when the depth reaches 150 mm (C145_violation_depth).
* **C146** Section checks of timber members: Axial force and shear in both directions; biaxial bending for moments that do not have opposite signs, combined checks for a moment about the weak axis that is not negative. The code does not meet the rest: moments of opposite signs cancel in the bending check (C146_violation), and a negative moment about the weak axis relieves tension and compression (C146_violation_weak).
* **C147** The design result of a timber member covers every section and check: All utilisations of all sections, and the stability checks given; without reduction of shear every section carries its own forces (C147_capacity). Negative torsion moments give negative utilisations, so the result is that of a member without torsion (C147_violation).
* **C148** Torsion of rectangles: Rectangles not wider than deep; the torsion constant for the tabulated ratios. Between them, and for squares, the constant is more than one and a half times that of a thin rectangle (C148_violation; the polynomial has 0.425 where 0.0425 fits); rectangles wider than deep are rated differently from the same rectangles turned (C148_violation_turned).
* **C149** Shear reduction near supports: Proved for beams of the same depth at both ends. The zone at the end of a beam is computed with the depth at its start, so that in a beam that is lower at its end a section in front of the zone is checked with the force of another section (C149_violation).
* **C150** Every force of the analysis reaches the member: One section per node, and all forces when they are continuous from element to element. At a jump the force before it is in no section (C150_violation).
* **C151** Buckling reduction of timber struts: From the relative slenderness 0.3 on. The code does not set the reduction to one below 0.3, where the formula gives values above one: short struts are rated stronger than their section.
* **C152** Lateral buckling reduction of timber beams: The reduction rises by less than 0.0003 at the slenderness 1.4, a gap of the standard itself. Between tabulated ratios of sides, and for squares, the critical stress is more than 1.2 times the one of the thin rectangle because the torsion constant falls back to 1.
* **C153** Segments between lateral supports: Generating a frame a second time appends the neighbours again: the member gets segments of length zero.
* **C154** Buckling lengths of timber members: The factor of columns depends on which end comes first for three combinations of supports; a column in one segment without supports raises ValueError; the factors are kept from the first call and do not follow changed supports.
* **C155** Buckling check covers every section: For members with sections at different locations and without negative moments about the weak axis. A negative moment about the weak axis relieves the strut, because only the moment about the strong axis enters with its absolute value; two supports without a section between them make the check raise ValueError.
* **C156** Lateral buckling check covers every section: Without axial force only sagging sections are covered: the moment keeps its sign, so that hogging beams never fail. The torsion constant is that of the code (C148).
* **C157** Bracing of timber beams: The force of the edge and of the brace are proved. The factor of the stiffness is computed and never used, and the span of the load is compared with 15 mm instead of 15 m.
* **C158** Slenderness used by the buckling check of timber members: From the relative slenderness 0.3 on, when there are as many buckling lengths as segments. The depth about the strong axis is that at some section of the segment, and the depth of the member if it is constant; under hogging moments the code chooses the section with the smallest bending stress, because it compares signed stresses (C158_violation).
* **C159** The factors for the apex of tapered and curved timber beams are those of EN 1995-1-1: proved for double tapered, pitched and curved beams and for tension across the grain everywhere, in terms of the slope of the code; false for the bending factor of curved beams with a ridge, for bent laminations and for the slope of beams with the apex out of the middle (negations proved)
* **C160** The moment at the apex of a timber beam is that of the section there, or interpolated between its neighbours: proved with a section at the apex or with the apex in the middle of its neighbours; otherwise the mean is used (negation proved)
* **C161** The tapered edge of a timber beam is checked for its largest bending stress with the strength of EN 1995-1-1: proved for edges under compression and stresses that are not negative; false for edges under tension and for negative moments (negations proved)
* **C162** Tensile strength across the grain at the apex follows volume and shape of the beam: proved for the fifth root, double tapered beams and curved beams with a ridge; false for solid timber and for curved beams (negations proved); the volumes are arguments
* **C163** Shear together with tension across the grain at the apex counts the shear at both ends: proved which two sections are used; false for negative shear at the end (negation proved)
* **C164** Load on the compressed edge reduces the tension across the grain at the apex: proved for a single uniform load in terms of its signed value; false for loads downwards and for several loads (negation proved)
* **C165** Compression across the grain bounds the pressure of every member that meets a timber member: proved for two joined nodes at least, members that end at the node, and contact lengths as in the middle of a member; false for single nodes, earlier checks, ends, members that start at the node, and solid timber (negations proved)
* **C166** The volume of the apex zone of a curved timber beam is that of its curved part: proved to be a ring over half the sum of the angles, which is half of the curved part (negation proved); the zone of curved beams with a ridge is not modelled
* **C169** The generated FEM model consists of one chain of elements per member: Members other than bars, whose additional points lie on them; C169_violation_bar: every bar with an inner node stops at it.
* **C170** Members that meet are connected in the FEM model: Crossings with at most five decimals; C170_violation_rounded: the members of a rafter and a post have no common node.
* **C171** A support on a member restrains its node there, and nothing else is restrained: Supports of at most three decimals added after their member; the violations show lost supports.
* **C172** Every point load reaches the FEM model once, at its place: Points of at most three decimals on a member added before; names without final digit.
* **C173** Line loads have their intensity at every element of the member: Uniform loads or equal elements, factor one.
* **C174** No load replaces another one, and load cases are known once: Names that do not end in a digit.
* **C175** A frame can be put together in any order and generated: Without tapered members.
* **C176** Updating the geometry of an unchanged frame moves nothing: Members whose points are different and have at most three decimals.
* **C177** Generating a frame a second time changes nothing: Nodes and elements for members as in C176; line loads are always doubled.
* **C181** Springs and hinges at the ends of members reach the FEM model, inner connections are rigid: Stiffnesses of beams and hinges of other members; the violations hold for all frames.
* **C182** A load combination contains exactly the factored loads of its load cases: Proved for a combination with an id of its own, loads whose names do not end in a digit and whose own factor is 1. The code replaces a load's own factor (violation), and a combination that has the id of a load case erases the loads of that load case from the frame.
* **C183** Combining the loads again changes nothing: Proved when nothing else happens in between. Violation: if a second combination was added in between, combining the first one again takes the second one's load names, and the second combination loses its loads.
* **C184** The first load case with variable actions leads a combination: Proved for load cases that have loads, all of one known type. Violations: an empty load case takes the lead, and a load case whose first load is permanent never leads, so that the only variable action is reduced to 70 %.
* **C185** Adding a load case to a frame adds all its loads: Proved for names that differ from all others. Violation: a load whose name is taken is silently left out, e.g. a second load case with a load of the default name.
* **C186** Every load of a frame has its load case, whatever is added in whatever order: Proved for all programs except that ids are listed once: the first load of a new id lists its id twice.
* **C187** Self weight acts once on every member: Proved for the first call, and for repeated calls on a single member. Violation: removing self weight from the frame only resets flags, so calling it again doubles the self weight of every member.
* **C189** A moved node moves in the FEM model too: Float coordinates and members of one element; the violations hold for all other moves.
* **C190** Hinges are where they were put: Two elements or one hinge, and own lists; both violations are proved for all such frames.
* **C192** A piecewise constant load has its first value before the step and its second value after it: Members from left to right.
* **C193** The design of a member finds the first profile that suits: Missing: a sign of failure when no profile suits; the last profile of the catalogue stays then. Analysis, slenderness and utilization are given functions.
* **C194** The design of a group finds the first profile that suits all of its members: Missing: the limit of slenderness, whose `continue` belongs to the loop over the members and has no effect, and the design of symmetry pairs of the members, which get the section only.
* **C195** After optimize_members no member is overloaded with its section: Missing: groups (their changes are not counted), symmetry pairs, members that no profile suits, and searches that end after nine iterations.
* **C196** Extreme forces of a member are extreme, and go with the forces at the same place: Missing: load cases whose smallest (largest) forces differ in sign, since absolute values are compared.
* **C199** Symmetry pairs of members are mirror images of each other: Missing: frames with nodes that have no mirror image, double members and coincident nodes.
* **C202** The painted area of a welded I-section is its circumference: The painted area lacks one side of the top flange, for every section.
* **C203** Turning a welded I-section upside down does not change it: Everything but the warping constant of unequal flanges and the asymmetry factor zj.
* **C204** Editing the dimensions of a welded I-section is the same as creating a new section: Dimensions and section properties follow every edit; the buckling curves are those of the dimensions at construction.
* **C205** The effective area of a welded I-section follows EN 1993-1-5: Bending of a new section with equal flanges. In compression the effective area is too large by half the web for every such section, and reading it twice gives different values.
* **C206** A welded I-section without slender parts is fully effective: Equal flanges. With unequal widths of the flanges the effective area for bending differs from the area although no part is slender.
* **C207** The moment resistance of a welded I-section reduced for the axial force: Bounds and monotonicity. The share of the web is computed with a wrong sign, so the value of EN 1993-1-1 is exceeded.
* **C208** The class of a welded I-section is that of its worst compressed plate: Pure compression when the lower flange is not more slender than the upper one. Violations: lower flange, compression with bending, pure bending with welds above 1 mm.
* **C209** The check of a welded I-section compares forces with resistances about both axes: Strong axis and classes 1 to 3; the check about the weak axis always raises an exception.
* **C210** Section properties of a WQ section are those of its four plates: Everything but the elastic axis (one web is missing), what is computed with it, and the plastic modulus with the neutral axis in a flange.
* **C211** The check of a WQ section returns ratios of forces to resistances: The plastic resistances and those about the axis of symmetry; the check raises a TypeError for every section.
* **C212** The annual cost of an investment is the payment that clears it: Without interest the function raises a ZeroDivisionError (C212_violation).
* **C214** Work costs something, and more work costs more: Proved for cuts up to 157 mm, fillet welds and butt welds from half a millimetre on; cutting plates of 157.1 mm or more and small butt welds has a negative cost.
* **C215** Thicker plates and larger welds do not cost less: A plate of 30 mm is cheaper to cut than one of 27 mm because the fitted parabola turns (C215_violation).
* **C216** Sawing costs add up over the ends of a member: The wear of the blade is divided by the sawing time (C216_violation); grades without parameters raise a KeyError (C216_violation_grade).
* **C218** The cost of a plate is the sum of material and work: Proved for plates up to 157 mm from which no weld or holes were taken away; the cost of a weld taken away stays in the cost (C218_violation).
* **C219** The cost of an end plate joint is the sum of its parts: The price of steel given by the caller is ignored (C219_violation_price); for each row only one nut, one washer and the holes of the plate are counted (C219_violation_row).
* **C220** The cost of a fin plate joint is the sum of its parts: The price of steel given by the caller is ignored (C220_violation).
* **C221** Two of height, ridge height and slope determine a roof truss: A height of zero at the supports, given together with the height of the ridge, is treated as not given (violation); with zero meaning "not given" the relation holds for all dimensions.
* **C222** A generated roof truss has the shape that was asked for: Proved for trusses with equal halves and equal offsets and at least two divisions. With unequal halves the ridge is generated at midspan instead of at the end of the left half, and a K truss with one division has coincident bottom nodes (violations).
* **C223** The braces of a generated roof truss form a planar web without gaps: Proved for trusses with equal halves and equal offsets and at least two divisions, including that each node is held by a brace except at open ends; unequal halves are missing. The code violates the statement for every N truss with an offset at the left end only: two nodes of the top chord share one place, a chord member has no length and two braces lie on one another (uneven_web_viol).
* **C224** A generated and supported roof truss is stable and statically determinate: Proved for trusses with equal halves, equal offsets and at least two divisions that have positive offsets or edge verticals. Without edge verticals at zero offset a mechanism exists for every such truss (C224_open_ends). Every N truss with an offset at the left end only is a mechanism too (uneven_mechanism_viol).
* **C225** A generated roof truss is supported at both ends of its span: Proved for trusses with equal halves and equal offsets and at least two divisions. The code violates the statement for every N truss with an offset at the left end only: its supports are at different levels (uneven_supports_viol). Other unequal halves and offsets are missing.
* **C226** Loads on the chords of a roof truss are the loads that were asked for: Uniform loads are proved for all chords. Piecewise loads agree with the zones for two boundaries when no member reaches over both. With one boundary the members in or over the zone border get no load, with three boundaries members in the third zone are loaded twice, and a member over two boundaries keeps the value of the middle zone beyond the second (violations).
* **C227** The joints of a roof truss match its members: Proved for trusses with equal halves and equal offsets and at least two divisions; members at open ends know only one joint (C227_violation_open) and N trusses with falling diagonals have no ridge joint (C227_violation_ridge). Unequal halves are missing.
* **C228** The gap of a K joint is the distance between its braces on the chord face: Proved when the braces lean to different sides of the perpendicular of the chord; the points at the joint and the side of the eccentricity are proved for all joints away from the ridge. If both braces lean to the same side the reported gap is too large, and at the ridge mirrored braces get different angles (violations).
* **C229** Moving a K joint moves its mirror image: Proved for all sequences of assignments at joints away from the ridge. At the ridge, assigning to the coordinate along a sloping chord the value it already has moves the joint off the vertical (violation).
* **C230** The utilisation of a Y joint of a truss compares the brace force with the resistance of the joint: Proved for narrow braces on a chord without compression. Under compression the chord stress factor is an exponent, so the utilisation is too small; wide braces raise TypeError (violations).
* **C231** The utilisation of a K joint of a truss covers all failure modes: Proved for the failure modes of braces with the chord force the code uses. Shear in the gap and the larger chord force have no influence, and joints without exactly one gap element or with one chord member raise (violations).
* **C232** The cost of a truss is the bill for its members and joints: Proved for braces of S235, S355 and S420. Braces of S275, S460M or S460Q, and joints of S460M, S460Q, S500 or S700 raise KeyError (violation).
* **C233** The welds around braces have full strength: Proved for S235 to S420; the other steels have no weld size and raise KeyError (violation).
* **C235** The local axes of a beam in space are right-handed and follow the member and its reference point: Right-handed orthonormal axes are proved when the length used is the distance of the nodes. Element.length rounds to three decimals; then the triple is orthonormal exactly when rounding did not change the length. "In the plane case the local and global y axes coincide" fails for members in negative x and columns drawn upwards.
* **C236** A beam in space stores the energy of stretching, twisting and bending in both planes and resists no rigid motion: Proved for the local matrix; in global axes when the length used is exact (the code rounds it to three decimals). With BeamSection, the section class of the package, the matrix cannot be formed: the torsion constant is read under another name.
* **C237** Nodal loads of beams in space do the work of the line load: Holds for loads along the local y axis. Along local z the moments have the wrong sign, loads along the member give no nodal loads and loads in global axes raise.
* **C238** After linear statics every element knows its forces: Holds for models of bars and plane beams with line loads on plane beams. Springs, beams with semi-rigid ends and beams in space always make the analysis raise TypeError after the displacements have been found, and so does any line load on another element than a plane beam. Supports are treated by removing rows.
* **C239** The second-order stiffness of a beam is that of the beam-column equation: Holds in compression, with and without releases. In tension the first-order matrix is used (no tension stiffening) and members in tension with releases raise LinAlgError because the condensation is applied twice.
* **C240** Loads in second-order analysis are the reactions of the clamped beam-column: Holds in compression for uniform loads in global axes with factor 1. Loads in local axes get moments of the wrong sign and size, varying intensities are replaced by the first one, tension uses the linear loads, and BeamSection has no modulus of elasticity (AttributeError).
* **C241** Second-order analysis finds the equilibrium of the elements under their first-order forces: For support method REM, exact arithmetic and an exact solver, from zero previous second-order displacements. Never returns when the model has a bar or any element other than a plane beam (AttributeError or TypeError).
* **C242** Buckling analysis returns load factors with modes in neutral equilibrium: The eigenvalue solver is a parameter required to return solutions of the generalised problem. Never returns when the model contains any element that is not a plane beam.
* **C243** Properties of thin-walled open sections are integrals over the wall: Fails for a thickness given as an int: IndexError for every section with a wall (open_prof.py 43-51). principal_axes raises TypeError at d^2 (line 236) and is not modelled.
* **C244** Splitting a wall changes no property of the section: Area, centroid, second moments, shear centre and warping constant are unchanged. The torsion constant of a section with at least two walls raises ValueError after a split, because the array of thicknesses keeps its length (open_prof.py 310, 337-340).
* **C245** The shear centre and the warping constant of open sections: Holds when Iy*Iz - Iyz^2 > 1e-8. Otherwise the shear centre is reported as (0, 0): for every section in a large enough unit of length, and for every flat plate, whose warping constant is then positive unless it points at the origin (open_prof.py 291-296).
* **C246** Position, orientation and direction of an open section play no part: Area, torsion constant, centroid and second moments without conditions on the shape; shear centre and warping constant when Iy*Iz - Iyz^2 > 1e-8 (see C245). The reversal and the symmetric sections are proved for a single thickness and for one thickness per wall. The code violates the statement for every flat plate that is shifted: the shear centre stays at the origin and the warping constant changes (C246_plate_viol).
* **C247** Resistance of a single web to a transverse force: Unstiffened webs: the value is never above that of the standard, and bearing length and stiffened flanges help (loads near an end and opposite forces). The code departs from the claim in three ways: the angle factor divides by 90 squared instead of squaring the quotient (a perpendicular web has 70 percent of its resistance); webs with stiffeners raise UnboundLocalError; away from the ends the resistance drops when the bearing length passes 60 thicknesses (that step is in the standard too).
* **C248** Resistance of sheeting with two or more webs to a transverse force: The value is that of the standard under the default code, and all comparisons hold whenever both calls return a value (positive thickness, radius at most 100 thicknesses, bearing length of at least 10 mm where it matters). Missing: under the default code an inner support without shear forces raises UnboundLocalError and one with zero shear forces ZeroDivisionError.
* **C249** Resistances of self-tapping screws: Bearing at room temperature and the shear table are as claimed. The check of validity compares the edge distance with 1.5 mm instead of 1.5 diameters, other diameters and materials raise KeyError and UnboundLocalError, and in fire the bearing resistance of the sheet is computed from the strength of the screw.
* **C250** Strength and buckling factors of cold-formed parts: Strength, edge stiffeners up to a ratio of 0.6, lists of corners and axial resistance are as claimed. The distortional factor exceeds 1 just above 0.65 and jumps up at 1.38 (as the formulas of the standard do), edge ratios above 0.6 raise UnboundLocalError, a single corner given as two numbers raises TypeError, and a missing keyword gives zero resistance.
* **C251** Geometry of trapezoidal sheets: Right for vertical webs only: for every other angle the web is shorter than its own rise, the area is too small and the pitch does not match.
* **C252** Rotational stiffness of the connection between sheeting and purlin: Uplift is as claimed. Under gravity load sheets in the negative position and thicknesses below 1 mm other than 0.75 mm raise UnboundLocalError.
* **C253** Linear and mixed-integer programs are solved as posed: Proved for linear problems without locked variables, with constraint types <, > and = and continuous (MILP: also binary) variables. Outside that the claim fails, proved: nonlinear constraints are dropped silently; <= and >= are treated as equations; integer and discrete variables are relaxed; with locked variables coefficients are matched with the wrong variables; with OR-tools the solver reports infeasible whatever was found.
* **C254** SciPy solvers keep bounds and constraints: SLSQP: proved in full. Trust region: proved without locked variables, up to the tolerance 1e-8. The claim fails, proved: COBYLA ignores the bounds; after an exception in the library the trust-region solver reports the start point with value minus infinity; its linear constraints are matched with the wrong variables when one is locked.
* **C255** Steepest descent never goes uphill: Proved for line searches that always succeed and never go uphill. When the line search fails the method ends in an IndexError, proved.
* **C256** Augmented Lagrangian method: History: proved in full. Optimality: proved for problems without bounds on the variables. With an upper bound it fails, proved: the multiplier of the upper bound is computed from that of the lower bound, and min -x on [0,1] settles at 1 + 1/(4R) for every penalty factor R.
* **C257** Grid search runs every combination once: Proved for the parameters of the solver. Parameters of the problem are without effect, and a grid without solver parameters raises ValueError, proved.
* **C259** Concrete inside a tube: Area and plastic modulus are the integrals over the inside of the tube less the bars. The claim fails for the second moment of area, which is too large by r^3(pi(2c+r)+8r/3) (r inner radius, c half height between the corners), and for the horizontal cover, which reads two bar radii too large. Both are proved.
* **C260** Buckling resistance of filled tubes: About the major axis under compression all is proved. About the minor axis the code raises UnboundLocalError, and without axial force ZeroDivisionError (proved).
* **C261** Plastic moment resistance of filled tubes: Proved when the neutral axis stays clear of the bars or lies beyond them. When the code takes all bars as stretched although two lie above the axis it returns, the forces are out of balance by 2A(2fsd-fcd) (proved).
* **C262** Compression and bending of filled tubes: Proved for non-negative end moments and an axial force below critical force and plastic resistance. Above the plastic resistance the utilisation is negative, above the critical force nothing is amplified, and negative end moments are ignored or even relieve the column (proved).
* **C264** Plastic resistance of composite beams: Proved with the neutral axis in the slab. In the steel part the formulas of flange and web are swapped: with the axis in the web the resistance is too large (proved, with the amount), in the flange too small. The slab's force has the factor 0.85 twice; welded sections with lists raise TypeError unless the axis is in the slab. The steel part is three plates without fillets.
* **C265** Resistance of shear studs: In the installed package the name of the partial factor is undefined and every call raises NameError (proved). With the name defined, the concrete term is right and the steel term is pi*gamma times too large (proved).
* **C266** Truss sizing program and its optimum: One load case, no scaling, displacement bounds around zero; resistances are rounded down to whole numbers. create_milp stores the problem and then raises NameError (C266_violation_return). With displacement bounds that exclude zero designs are lost (C266_violation_bounds).
* **C267** Scaling of the truss program: The designs of the scaled program are given exactly. Violated: tension resistances are scaled by the square of the length factor instead of the force factor and displacement bounds are not scaled, so unsafe designs get in or all designs are lost.
* **C268** Several load cases in the truss program: Strength holds in each case. Violated: all balances are on the forces of the first case, so two different cases leave no point at all.
* **C269** Topology of trusses: The points are characterised exactly (one case, no scaling). Violated: the first constraint is the wrong way round, so all members of the ground structure at a node that remains are forced in, and members may remain at nodes that are left out.
* **C270** Groups of members in the truss program: Proved for topology. Violated for sizing: groups have no constraints there.
* **C272** Section resistance in the structural problem: Code differs from the claim: only the first end of an element is read, and elements made by the finite element model have no axial_force, shear_force or bending_moment, so that the default constraints raise AttributeError.
* **C273** Member stability in the structural problem: Code differs from the claim: lateral-torsional buckling is only checked for hollow sections, and with abs(max) of the moments, which lets negative moments pass.
* **C274** Deflection limits in the structural problem: Code differs from the claim: only the node with key 0 is read; without it the constraint raises KeyError.
* **C275** Section class limits in the structural problem: Code differs from the claim: the class asked for is ignored (3 for I-sections, 2 for hollow ones); other sections raise UnboundLocalError. Uniform compression is assumed for the web.
* **C276** Geometry of truss joints in the structural problem: K joints proved in full. Code differs from the claim: no upper bound of the angle of a Y joint, no constraints for KT joints.
* **C277** Strength of truss joints in the structural problem: Code differs from the claim: compression in the chord of K joints and chord face failure under a compressed brace of Y joints are not checked, KT joints have no constraints.
* **C278** Choice of constraints in the structural problem: Code differs from the claim: the published key LT_buckling raises TypeError, alpha_cr has no effect.
* **C279** Constraints of groups in the structural problem: Code differs from the claim: constraints are removed from the list while it is iterated, so every second one stays; new ones are made once for each object of the group, and joint constraints are repeated; a group without constraints raises KeyError.
* **C280** Design variables of the structural problem: Code differs from the claim: the default groups lack the key values (KeyError), binary groups and properties without a value are dropped silently.
* **C281** Index variables turned into dimensions in the structural problem: Code differs from the claim: variables have no attribute id (AttributeError), variables of beams are lost, and dimensions can be combined across profiles.
* **C282** Seam strength of a stressed skin panel: Proved for fasteners in the troughs and spacings within the panel. Fails for fasteners on the crests (TypeError for every panel), for spacings wider than the panel (the strength of one fastener is taken off) and for the ECCS rule with seam fasteners of 4.8 mm (ValueError), because the strength of rafter fasteners uses the diameter of the seam fasteners.
* **C284** Distortion constant of a trapezoidal sheet: Proved for depth and top flange of at least a tenth of the pitch. A shallower sheet is given the constant of a sheet 0.8 times as deep as its pitch, for vertical webs more than twice any constant up to half the pitch. One entry of the table (vertical webs, depth 0.5, top flange 0.2) does not fit its neighbours.
* **C285** Shear flexibility of a stressed skin panel: Proved for spacings within the panel and at least one whole sheet. With edge fasteners spaced wider than the panel every panel raises ZeroDivisionError.
* **C286** Strengths of rafter fasteners, edge fasteners and sheet ends: Only the strength of the rafter fasteners is returned; the other two methods have no return statement. The diameter of rafter fasteners is the one of the seam.
* **C287** Symmetric simple trusses: Proved for trusses with a ridge for every number of webs. Violated: in a flat truss (no ridge height) with a number of webs divisible by four the last pair ends twice at the right end of the top chord.
* **C288** Web pattern of simple trusses: Chain and even spacing (n = 4k+2) proved. Violated: with n = 4k and no offset of the bottom chord the last left web ends in the right half and crosses its mirror image; an odd number gives one web less.
* **C289** One joint per panel point: Proved for places that are equal or more than 0.0305 of the length apart. Violated: with 70 or more webs different panel points share a joint.
* **C290** Angle between web and chord: Proved for horizontal chords, and for webs that lean like the chord. Violated: on a rising chord the angle of a web that leans the other way is too small.
* **C292** Deflection and joint forces of a truss: Proved for one bottom chord and K joints under the ultimate limit state. Violated: only the last bottom chord counts; joints always take the forces of the ultimate limit state; joints of three webs fail.
* **C293** Changing the heights of a truss: Proved for trusses with a ridge. Violated: heights of a flat truss cannot be set, columns and trusses with a load cannot be made, chords of a flat truss with unequal halves do not end above each other.
* **C294** Members of a truss chord: The sum is the distance of the first and last joint; the parts outside belong to no member.
* **C297** Support by sandwich panels: Violated: panels made without a list of screws share one default list.
* **C298** Axis and stiffness of CLT slabs: Centroid proved for symmetric layups, stiffness of layers for all. Violated: unsymmetric layups; areas raise AttributeError; the bending stiffness of the slab is not returned.
* **C299** CLT slabs do not influence each other: Proved for slabs with layers of their own and lists of equal length. Violated: a shared layer takes the size of the later slab; surplus entries are dropped.
* **C300** Gross area of a cold-formed section: Fails for a lipped top flange narrower than 3.93 mean radii: the helper nodes at one and three quarters of the flange lie behind the corners and the polygon runs back and forth, so the reported area is too large.
* **C303** Effective flanges of a C section: Holds for a top flange without lip. With a lip the part next to the web always ends at a quarter of the flange, so for rho from one half up too much is removed; a bottom flange without lip is never reduced.
* **C304** Slender lips and the gross section: Fails: the end of a slender top lip stays in the effective section, the node of a slender bottom lip is moved beyond the tip and the area grows, in the gross section too, because its nodes are shared. What holds is c_effective_full under C302.
* **C305** Effective section of a Z section: AttributeError for every slender web (the profile has no attribute parts), NameError for every slender lipped top flange (nseg is never set); without lips the bottom flange is never reduced.
* **C306** The effective section does not depend on earlier queries: Bending keeps the bottom factors of an earlier compression query; unknown loads are ignored silently. The factors computed in a call are inputs.
* **C307** Stiffness that holds an edge stiffener: Aeff of a section made without a design force uses the larger stiffness without compression; a section with one lip cannot be computed in compression (AttributeError).
* **C311** Lateral stiffness of purlins: For a C section K and KB treat gravity as uplift (kh knows gravity as 'down').
* **C312** Catalogue of Z purlins: Outside the catalogue UnboundLocalError.
* **C314** Correction for rounded corners: The deduction is taken off the area of a model whose corners are rounded already. What holds is C300.
* **C316** Resistances of steel cross-sections: The strength for thicknesses over 40 mm, which the material carries, is never used.
* **C317** Named materials are in consistent units: The four stainless steels have a modulus of 200 where carbon steel has 210000.
* **C318** Units convert numbers without memory: Units of length multiply everything they were ever multiplied with. settings/units.py cannot be imported (Parameters is inside a string).
* **C319** Cold-formed members: The cold-formed sections have no attributes fy, I and imp_factor, so slenderness and buckling strength raise AttributeError for them; what is proved holds for a profile that has them.
* **C320** Average yield strength of cold-formed sections: Four bends are counted whatever the section.
* **C321** A group of variables has one variable for each attribute: Proved for lists of equal length. Violated otherwise: the lists are zipped, so a short list of bounds silently drops the attributes at the end (variable_group.py 59-62), for every such group.
* **C322** Variables of a group start inside their bounds: Given start values are used as they are. Violated without start values: every variable starts at zero, also below a positive lower bound; an index variable starts at a list instead of an index.
* **C324** Substituting a variable of a group: Proved for continuous and discrete groups and for index groups with `attribute`. Violated for index groups with `attributes`: the property of the variable is `None` and every substitution raises.
* **C325** Eccentricity problem of a tubular truss: Proved as stated for trusses whose ridge joint has two braces. A ridge joint with three braces makes the creation fail with `TypeError`; braces almost as wide as the chord leave no admissible gap and nothing is reported.
* **C326** Vertical braces stay vertical: Proved for braces that do not end at the ridge. Violated at the ridge of a truss with sloped chords: the constraint uses the perpendicular of one chord although the intersection moves vertically.
* **C327** The ant colony runs to its end: Proved for at most as many members as variables and at least as many ants as are rewarded; otherwise every search raises IndexError.
* **C328** The ant colony chooses for each variable one of its own values: Proved if all variables have the same list. The list of the first variable is used for all members: with a disjoint second list no evaluated design is allowed.
* **C330** Adding variables to a problem: Holds for `add` and for assigning the list; `add_variable` and `add_variables` append to a temporary list and change nothing.
* **C331** The three bar truss with areas from a list accepts areas: Proved for variables made with `values`; the problem passes `profiles`, so the bounds are missing and every substitution raises TypeError.
* **C333** Two formulations of the ten bar truss agree: Bars 1 and 8 and bars 3 and 7 are interchanged, so weights differ for almost all vectors; one problem limits only vertical displacements, the other one also horizontal displacements and rotations.
* **C334** Constraints of the three and fifteen bar trusses: Feasibility is proved; the names "Compression" and "Tension" are interchanged for every bar.
* **C335** Weights of the benchmark trusses: The three bar problem of benchmark_trusses.py leaves the third bar out of its weight.
* **C336** Every bar of the older three bar problem is checked: Proved for equal bars. The functions read the loop variable after the loop, so all constraints use the last bar.
* **C337** Binary variables of the three bar truss choose one area: Proved for constraints that know their problem; the problem makes them without it, so every call raises AttributeError.
* **C339** The fifty-two bar problem has its variables and constraints: Proved for variables added with `add`; as written the problem has no variables and no constraints.
* **C340** A simple truss has the members that were given: Members, numbers, profiles and errors proved for equally long lists and the two known types. Violated otherwise: with fewer profiles than members the rest is dropped, with an unknown truss_type there is no member, both without an error (proved).
* **C342** The example trusses are statically sound: Soundness proved with the full number of profiles; a shorter list is accepted and makes the ten bar truss a mechanism (proved). raami's fifteen_bar_truss itself stops with AttributeError (no method generate), the frame2d version is the one proved.
* **C343** A Vierendeel truss has the geometry that was asked for: Geometry, members and supports hold for every positive number of panels. The code disagrees twice: -1 panels are accepted as an empty truss, and the inherited outline points are not corners of the truss.
* **C344** Joints of a Vierendeel truss: The collected members are right at every node, but generate_joints raises AttributeError for every truss (a Y joint has no joint object whose method is called).
* **C345** Loads and weight of a Vierendeel truss: Loads and weights hold; the code disagrees on unknown chord names, which are ignored silently.
* **C346** Columns and truss of a portal frame fit together: Proved for a truss created once on a fresh frame, followed by the columns. The code disagrees otherwise: bottom_chord_to_column is never reset, create_columns without a truss does nothing, and a truss deeper than the frame is accepted.
* **C347** The detailed weight of a portal frame includes its columns: The code disagrees for every frame: Wcols is computed and printed but not returned.
* **C348** Every uniform load of a portal frame acts once in the analysed model: portal_total gives the exact load for every sequence; the code disagrees by the first chord request of each load case, which is in the loads of the truss and of the frame, and both are added to the finite element model.
* **C349** The linear program of a truss describes its plastic designs: Proved for given stress limits, members numbered by their position and with different end nodes. Without a stress limit the call ends with NameError: the default refers to an undefined name.
* **C351** Scaling of a truss design: Holds for designs within their bounds, displacement limits around zero, and the first load case. Without a suitable multiple the design is returned unchanged (only a message is printed); violated limits on the other side of zero stay violated; a design below its lower bounds is scaled too little, because constraints are evaluated for areas moved to the bounds; further load cases are not looked at.
* **C352** Fully stressed design: The analysis is called with design=False, which does not hand the forces to the steel members of a raami truss: the result only depends on forces stored before, a new truss gets the smallest areas for all loads, and a group gets the area of its last member. Frames of frame2d end with TypeError. Right if every variable has one member whose stored forces are the present ones.
* **C353** Bolt rows of an optimized end plate keep their distances: Proved for extended end plates with adjacent tension rows. The code violates the claim for a tension row below a shear row (distance measured from the beam axis) and for flush plates (two variables named z1).
* **C354** The top row keeps its distance from the edge of the end plate: Proved when the top extension is a variable; with a fixed extension the code has no edge distance constraint and the row may lie on the plate edge.
* **C355** Optimized bolts sit where the design variable puts them: Proved for evaluations of the objective, which substitute twice; a single substitution uses the previous plate width, and with fixed width the plate edge is ignored.
* **C356** Evaluation of an end-plate problem does not depend on history, and starts from the given joint: History independence proved for all options; the start reproduces the joint only with fixed plate width; the argument plate_thicknesses is ignored by the code.
* **C357** Resistance and stiffness constraints of end-plate problems mean what they say: Equivalence proved for positive moment resistance; negative moments are always accepted and pinned_joint has no effect.
* **C358** The forces reported for a member are the largest of its load cases: Proved for the load case calculated last. The code violates the rest: earlier load cases may have larger forces (last_case_viol), and a node gets the larger end value of the element that starts there, not the force at the node (node_value_viol).
* **C359** Design forces by load case: Proved for forces without jumps. The value just after a point load inside the member is missed (jump_viol) and VEd reads a component that plane elements never write, so it is always zero (shear_zero_viol).
* **C360** Utilization and verdict of a member: Utilizations by load case are right; the verdict is that of the load case calculated last, so an overload in another one is hidden (verdict_viol).
* **C361** Choice of a profile for a member: Proved for the forces of the load case calculated last. Every load case is checked with these forces (two_cases_viol, same_ratio_viol); without a sufficient profile the last one is kept silently (no_fit_viol); square hollow, HE AA, HE C, HE M and welded sections are searched in another family (family_viol).
* **C362** Choice of profiles for a whole frame: Proved for iterations that change no section, and for frames of one member with one load case. The flag that stops the search is that of the last member only (last_member_viol).
* **C363** Names and heights of profiles: Proved for IPE, HE A, HE B and hollow sections with whole dimensions, heights of IPE and square hollow sections. Other names are refused or change the section; unknown HE letters and most heights are ignored without an error. Texts of welded profiles (WI with a space) are not modelled.
* **C364** Length and weight of a member with several spans: Proved for straight members; in general length and weight are at most the sums. For a member with a bend they are smaller (bend_viol): the length is the distance between the ends.
* **C365** Points and local coordinates of a member with several spans: Points proved if every span has a number of elements, local coordinates for straight members from the first node on. A list of numbers that is too short drops the last spans silently; with a bend local coordinate 1 is not the last node; a point before the first node gets a positive coordinate.
* **C366** Section, buckling lengths and elements of a member with several spans: Sections and factors proved for all sequences of operations; releases for two or more elements. A member of one element hinged at both ends loses the release of the first end.
* **C367** Design of a member with several spans: The utilization is right; the verdict compares with one whatever the allowable utilization and is that of the last load case. If a profile serves, the first one is chosen; the required utilization passed is not read, and if none serves the last profile is left on the member, whatever its class. The utilization of a span is an argument of the model.
* **C368** Nodes and members in the file for Robot: Proved for plane frames whose nodes are added once and before use. The third coordinate of a space frame is not written; a node added twice is written twice under one number; a member with a node that was not added stops the export. Loads are never written.
* **C369** Supports, releases, section names and file name in the file for Robot: Proved for the named supports of plane frames, all hinges and HE names. In space the support in x leaves x free; supports with their own directions stop the export; sections without a name method are written as None; the point in the name of the file is looked for at its second character.
* **C370** Nodes, elements, sets and sections in the input file for Abaqus: Nodes, elements, sets and the nodes held out of the plane proved for every file written. Without listed members and sets nothing gets a section; a frame that is not a truss and sections that are not rectangular hollow sections cannot be exported with listed members; the set of a member is one line of any length; a truss with constraints cannot be exported twice with the default options. The model has the records of the file, not its text.
* **C371** Releases, supports and monitored nodes in the input file for Abaqus: Releases proved for members of two or more elements none of which is released at both ends; those of members of one element are lost. Fixed, hinged and vertical supports are right; a support in x is written as a symmetry condition that also holds the rotation, others are dropped. The closest nodes are found, but their positions are written where numbers (one higher) are expected.

## Modelled code

| module | files of `/repo/metku` | parts |
|----|----|----|
| `Model/Fem`, `Model/Elements`, `Model/Length` | `framefem/framefem.py`, `framefem/elements/{ebbeam,rod,springs,eb_semi_rigid_beam}.py` | numbering, supports, assembly, load vector, linear statics with `REM`, nodal forces, element matrices, line loads, end releases |
| `Model/Opt*` | `optimization/{structopt,variables,constraints,objective,opt_functions}.py`, `optimization/solvers/{optsolver,bnb,pso,mma,slp,mislp,vns,two_phase,ga,aco}.py` | variables, substitution, evaluation, penalties, multipliers, linearisation, CONLIN and MMA approximation, solver loop, branch and bound, particle swarm, sequential linear programming (ortools as any function with correct answers), neighbourhood search, two-phase discretisation, genetic algorithm and ant colony (random choices and operators as arguments) |
| `Model/Ec3`, `Model/Ec3Fire`, `Model/Ec3Plate` | `eurocodes/en1993/en1993_1_{1,2,5}.py` | classification, buckling, resistances, interaction, fire, plates |
| `Model/SteelGeom`, `Model/SteelMember` | `sections/steel/{RHS,CHS,ISection,steel_section}.py`, `structures/steel/steel_member.py` | section properties, classes, cross-section checks, member buckling, member design |
| `Model/Loads`, `Model/Wind` | `eurocodes/en1991/{en1991,en1991_1_4}.py` | load combinations (not the split result), wind loads |
| `Model/Bolt` | `eurocodes/en1993/en1993_1_8/{en1993_1_8,component_method}.py` | bolts, welds, components of the column web, stiffness ratio |
| `Model/EndPlate` | `eurocodes/en1993/en1993_1_8/en1993_1_8.py`, `structures/steel/end_plate_joint.py` | T-stubs, bolt rows and groups, moment and shear resistance and stiffness of end-plate joints (not stiffened columns, costs and drawing) |
| `Model/FinPlate` | `structures/steel/fin_plate_joint.py`, `structures/steel/plates.py` | edge distances, bolt groups in shear and bearing, shear, bending, lateral-torsional buckling and block tearing, check of distances (not costs, drawing and printing) |
| `Model/RhsJoint` | `eurocodes/en1993/en1993_1_8/rhs_joints.py` | K gap, Y and X joints between hollow sections, lines in the plane (not drawing and printing) |
| `Model/TimberFire`, `Model/TimberTaper` | `eurocodes/en1995/{en1995_1_2,fire_protection}.py`, `sections/timber/timber_section.py` | charring, protections, residual sections, tapered and curved heights, small elements (not `A_face`) |
| `Model/TimberStrength` | `eurocodes/en1995/{en1995_1_1,constants}.py`, `timber_section.py` 171-201, `structures/timber/timber_member.py` 115-206 | `kmod`, `gammaM`, `k_to_d`, `k_h`, `k_L`, design strengths |
| `Model/TimberMember` | `structures/timber/timber_member.py` 267-281, 568-577, 616-699, 999-1007, 1056-1136, 1335-1422, 1466-1473, `frame2d/frame2d.py` 2519-2540 | section checks, torsion, shear reduction, design, forces of members (stability checks are arguments) |
| `Model/TimberStab` | `structures/timber/timber_member.py` 701-954, 1138-1243, 1424-1464 | segments, buckling lengths, buckling and lateral buckling reductions and checks, bracing (`sigma_mcrit` without its fallback, `get_full` outputs not modelled) |
| `Model/TimberApex` | `structures/timber/timber_member.py` 283-352, 398-479, 956-997, 1245-1334 | apex factors, moment and stresses at the apex, tapered edge, combined shear and tension (volumes of the apex zone are arguments) |
| `Model/TimberBearing` | `structures/timber/timber_member.py` 383-384, 481-566, 1013-1054 | compression across the grain at nodes, volume of the curved part |
| `Model/FrameGeom`, `Model/FrameGen` | `frame2d/frame2d.py` 41, 117-160, 204-307, 560-600, 678-760, 1503-1600, 1992-2021, 2070-2341, 2676-2733, 3588-3713 | points of members, intersections, adding of members, supports and loads, generation of nodes, elements, supports and loads, self weight, update of the geometry, second generation (not hinges of bars, cross-section lists, joints, trusses) |
| `Model/FrameSimple` | `frame2d/frame2d.py` 117-185, 598-677, 3464-3508, 3715-3750 | regular frames, their supports, width and height |
| `Model/RaamiLoads` | `raami/frame_loads.py` 28-205, `raami/raami.py` 58-74, 115-200, 251-274, 303-309, `raami/frame_member.py` 317-333 | loads, load cases, load combinations and self weight of `Raami` frames, with objects and identities |
| `Model/RaamiFem` | `raami/frame_node.py` 15-95, `raami/frame_member.py` 103-178, 265-290, 335-355, 573-642, 814-823, `raami/frame_supports.py` 12-50, `raami/raami.py` 276-322, `raami/frame_loads.py` 280-388 | nodes, members, hinges and FEM model of plane `Raami` frames, moved nodes, line loads on elements |
| `Model/RaamiDesign` | `raami/frame_member.py` 188-201, 265-284, 358-415, 480-518, 1171-1260, 1413-1530, `raami/raami.py` 323-374, 413-456 | internal forces, displacements, design of members and groups, `optimize_members`; analysis, slenderness and utilization are given functions |
| `Model/RaamiSym` | `raami/raami.py` 802-860 | symmetry pairs of nodes and members |
| `Model/WeldedI` | `sections/steel/wi.py` 1-1000, `sections/steel/steel_section.py` 623-666 | welded I-sections: dimensions and editing, section properties, effective section (the state stored by the effective parts is threaded), classes, resistances, interaction and check |
| `Model/WQ` | `sections/steel/wq.py` | WQ sections: section properties, moment resistances, check |
| `Model/Workshop` | `cost/workshop.py`, `cost/cost_data.py`, `structures/steel/plates.py` | cost centres (blasting, cutting, welding, sawing, painting), workshop, costs of plates |
| `Model/JointCost` | `structures/steel/end_plate_joint.py`, `structures/steel/fin_plate_joint.py`, `structures/steel/plates.py` | costs of end plate joints, fin plate joints and plates with holes |
| `Model/PlaneTruss` | `raami/raami_plane_truss.py` 447-1100 | roof trusses (`SlopedTruss`): dimensions, nodes, chords and braces of K, N and KT trusses, supports |
| `Model/TrussParts` | `raami/raami_plane_truss.py` 1082-1220, 2506-2560 | loads on the chords of roof trusses, joints by nodes and their members |
| `Model/TrussJoint` | `raami/raami_plane_truss.py` 2560-3545 | Y and K joints of trusses: local coordinates, gap, points on the chord face, symmetric joints, resistances and design |
| `Model/TrussCost` | `raami/raami_plane_truss.py` 275-330, 525-552, 1771-1783, 1957-1970, 2122-2160, 2684-2730 | costs and weights of trusses |
| `Model/Beam3` | `framefem/elements/ebbeam.py` 627-1000 | beams in space: axes, stiffness, nodal loads (not temperature and warping) |
| `Model/Analysis` | `framefem/framefem.py` 430-530, 540-904, 1359-1395, 1699-1733 | linear statics to the element forces, second-order analysis and linear buckling; element classes by the methods they offer, element matrices and the eigenvalue solver are parameters |
| `Model/SecondOrder` | `framefem/elements/ebbeam.py` 246-518 | second-order stiffness and nodal loads of plane beams |
| `Model/OpenProf` | `eurocodes/en1993/en1993_1_3/open_prof.py` 19-481 | thin-walled open sections: properties, shear centre, warping, torsion, splitting |
| `Model/ColdRules` | `eurocodes/en1993/en1993_1_3/en1993_1_3.py` 19-570, `trapezoidal.py` 27-107 | rules for cold-formed parts, webs under transverse forces, screws, sheet-purlin stiffness, geometry of trapezoidal sheets (not: `gr`, `rounding_factor`, `distortional_buckling_stress`, `sheeting_shear_stiffness`) |
| `Model/OptSolvers` | `optimization/solvers/` `lp.py`, `milp.py`, `slsqp.py`, `trust_region.py`, `steepest.py`, `alm.py`, `grid_search.py` | translation of a problem for the libraries and what is stored of their answers; loops of steepest descent and of the augmented Lagrangian method; the grid of parameters. Gurobi, OR-tools and SciPy are parameters |
| `Model/Composite` | `sections/composite/composite_column.py` 25-613, `composite_beam.py` 23-418, `eurocodes/en1992/constants.py` 41-102, `en1992/en1992_1_1.py` 33-92, `en1994/en1994_1_1.py` 29-64 | creep of concrete, filled tubes (geometry, axial and moment resistance, the utilisation that `design` prints), composite beams (elastic and plastic), shear studs (not: plots, weights of slabs, shrinkage moduli) |
| `Model/TrussMilp` | `optimization/problems/truss_milp.py` 39-580 | mixed-integer program for sizing and topology of trusses: variables, objective, constraints, groups, scaling, lists of profiles (not: plots, substitution of a design; the matrix of statics, lengths and resistances are inputs) |
| `Model/StructProblem` | `optimization/problems/structural_problem.py` 17-814 | structural optimisation problem: constraint functions of members and joints, choice and grouping of constraints, design variables, conversion of index variables (not: objective; forces, resistances and dimensions are inputs) |
| `Model/StressedSkin` | `structures/steel/stressed_skin.py` 21-563 | stressed skin panels: strengths of fasteners and seams, factor for the number of fasteners, distortion constant, shear flexibility (not: printing; geometry of the sheet is input) |
| `Model/Truss2D` | `truss2d/truss2d.py` 21-300, 346-399, 474-496, 634-679, 983-1277, 1392-1398, 1819-1853 | simple trusses: chords, webs, joints along a chord, gap, eccentricity and angles, heights, deflection, forces of joints (not: joint resistance, nodes and elements, plotting) |
| `Model/Panels` | `sandwich/sandwich.py` 19-277, `structures/timber/clt_slab.py` 18-184 | sandwich panels: stiffness, fasteners, support of members; slabs of cross laminated timber (not: drawing) |
| `Model/ColdSection` | `eurocodes/en1993/en1993_1_3/cf_profs.py` | `ZSection`, `CSection` (dimensions, notional widths, nodes, gross and effective section, edge stiffener, distortional buckling, axial resistance, purlin stiffness), `ruukki_z`; plate reduction factors and centroids are inputs |
| `Model/IProfile` | `profiles/steel/isections.py`, `profiles/steel/isection_formulas.py`, `design/steel_section.py`, `materials/steel.py`, `settings/settings.py`, `structures/steel/cf_steel_member.py` | formulas and catalogue of I-sections, cross-section resistances, materials, units, cold-formed members |
| `Model/OptGroup`, `Model/EccOpt` | `optimization/variable_group.py`, `raami/raami_truss_opt.py` | groups of variables; the eccentricity problem of tubular trusses |
| `Model/OptAco` | `optimization/solvers/aco.py` | the whole ant colony search with its errors (random choices as an argument) |
| `Model/Bench` | `optimization/benchmarks/{three_bar,ten_bar,simple_ten_bar,fifteen_bar,fifty_two_bar}_truss.py`, the three bar problem of `benchmark_trusses.py`, adding variables in `optimization/structopt.py` | constraints, weights, geometry and variables of the benchmark problems (forces and displacements as data) |
| `Model/SimpleTruss` | `raami/raami_simple_truss.py`, `frame2d/simple_truss.py` | pin-jointed trusses: members from lists, assembled rod equations, axial forces, the three, ten and fifteen bar examples (not: plotting, design checks) |
| `Model/Vierendeel` | `raami/raami_vierendeel.py` with the parts of `raami_plane_truss.py` it uses | nodes, members, supports, joints, loads and weight of Vierendeel trusses (not: sections, finite elements) |
| `Model/Portal` | `raami/raami_portal_truss.py` 61-612, parts of `raami/raami.py` | geometry of truss and columns, weight, sequences of uniform loads up to the finite element model (not: joints, eccentricity elements, design) |
| `Model/TrussOpt` | `optimization/problems/truss_optimization.py` 331-348, 368-395, 450-727 | linear program of trusses, stress and displacement constraints, scaling, fully stressed design (not: strength and buckling constraints, `truss_milp` of this file) |
| `Model/EndPlateOpt` | `optimization/problems/end_plate.py` (to 510), `structures/steel/end_plate_joint.py` (constructor, setters) | variables, bounds, geometry and resistance constraints of end-plate optimization, effect of substitutions on the joint (not the export of results and the series of runs) |
| `Model/FrameDesign` | `frame2d/frame2d.py` 497-558, 1623-1658, 1824-1986, 2372-2454, 2519-2540, 2588-2674, `__repr__` and constructors of the steel sections | largest forces, verdict, choice of profiles for members and frames, names and heights of profiles (analysis and utilization are arguments; texts of welded profiles are not modelled) |
| `Model/MultiSpan` | `raami/frame_member.py` 838-1092, 1262-1373, 576-640, 188-196 | members with several spans: geometry, points, local coordinates, section and buckling factors of spans and elements, releases, design and choice of profiles (utilization of a span and class of a section are arguments) |
| `Model/Export` | `raami/raami.py` 96-122, 208-213, 861-1320, `raami/exports.py`, `raami/raami_plane_truss.py` 362-440, `robot` methods of the steel sections | records of the files written for Robot and Abaqus (not their text, the parts for steps and output requests) |
| `Model/RowStiff` | `eurocodes/en1993/en1993_1_8/en1993_1_8.py` 460-462, 593-749, 925-946, `structures/steel/end_plate_joint.py` 466-473 | stiffness of a bolt row from its components, column web in compression (effective lengths of the T-stubs are given) |

Not modelled: dynamic analysis, the other frame generators
(joints and design of portal trusses of `raami`), welded box sections, volumes of curved timber beams with a ridge, sheeting profiles, the other joints of EN 1993-1-8,
costs of profiles, the remaining solvers (SLQP, CONLIN, `pso_deap`), the other problem collections, plotting, export to other formats and user interfaces.

## Axioms

Result of `#print axioms` for the 1145 theorems of the manifest: none uses an axiom other than `propext`, `Classical.choice`, `Quot.sound`. No theorem uses `sorryAx`, `Lean.ofReduceBool` or `Lean.trustCompiler`. `decide +kernel` occurs in witnesses and evaluates in the kernel.

Only `propext` and `Quot.sound`: `Bench.set_variables`, `Export.abaqus_codes_partial`, `Export.abaqus_long_line_viol`, `Export.abaqus_single_viol`, `Export.robot_releases_partial`, `Export.robot_supports_partial`, `FDesign.family_partial`, `FDesign.family_viol`, `FDesign.height_he_viol`, `FDesign.height_ignored_viol`, `FDesign.height_partial`, `FDesign.height_twice_viol`, `FDesign.letter_viol`, `FDesign.no_fit_viol`, `FDesign.optimum_partial`, `FDesign.pass_partial`, `FDesign.rename_chs_viol`, `FDesign.rename_viol`, `FDesign.same_ratio_viol`, `FDesign.utilization_partial`, `FDesign.verdict_partial`, `Fem.C05_isolation`, `Fem.C06_supported_unchanged`, `Fem.C06_violation_default`, `Fem.C12_last_wins`, `Fem.C12_partial`, `Fem.C13_first_partial`, `Fem.C13_numbering_frozen`, `Fem.C238_success_partial`, `Grp.group_refused`, `Grp.index_attributes_viol`, `Grp.index_start_viol`, `Opt.C118_bounds`, `Opt.C119_limits`, `Opt.C119_mislp`, `Opt.C123_violation`, `Opt.C125_violation_timeout`, `Opt.C126_partial`, `Opt.C126_violation_raises`, `Opt.C128_partial`, `Opt.C128_violation`, `Opt.C130_violation_reuse`, `Opt.C132`, `Opt.C133_violation_odd`, `Opt.C19_violated_cont`, `Opt.C20_monotone`, `Opt.C20_partial`, `Opt.C20_step`, `Opt.C23_history`, `Opt.C23_own_partial`, `Opt.C23_step`, `Opt.C26_idle`, `Opt.C26_monotone`, `Opt.C26_personal`, `Opt.C26_start_infeasible`, `Opt.C28_partial`, `Opt.C28_structure`, `Opt.C43_moves_free`, `Opt.C43_violation_index`, `Opt.C45_first`, `Opt.C45_partial`, `Opt.C48_partial`, `Opt.C59_step`, `Raami.C182_violation_factor_any`, `Raami.C184_partial`, `Raami.C185_violation_defaults`, `Raami.C185_violation_names`, `Raami.C185_violation_taken`, `Raami.C189_violation_plain`, `Raami.C192_violation_column`, `Raami.C193_partial`, `Raami.C193_violation_none`, `Raami.C194_partial`, `SProb.C272_viol`, `SProb.C273_viol`, `SProb.C274_node_viol`, `SProb.C274_viol`, `SProb.C275_other_viol`, `SProb.C277_kt_viol`, `SProb.C278_alpha_viol`, `SProb.C279_key_viol`, `SProb.C279_one`, `SProb.C281_partial`, `SProb.C281_viol`, `STruss.truss_type_viol`, `Solve.C257_partial`, `Solve.C257_violation`, `T2.C288_count_partial`, `T2.C288_count_viol`, `T2.C288_default_partial`, `T2.C289_webs`, `T2.C292_forces_viol`, `T2.C292_partial`, `T2.C292_viol`, `T2.C293_partial`, `T2.C293_viol`, `TOpt.fsd_frame2d_viol`, `TOpt.lp_default_viol`, `TOpt.lp_total`, `Vier.vier_chord_viol`, `Vier.vier_panels_viol`, `Vier.vier_weight`, `Wind.C76_violation`.

No axioms: `Bench.add_variable_viol`, `Export.abaqus_section_viol`, `Export.robot_chs_viol`, `Export.robot_general_support_viol`.

All other theorems of the manifest: `propext`, `Classical.choice`, `Quot.sound`.
