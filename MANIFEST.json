{
 "claims": [
  {
   "property": "C01",
   "status": "proved",
   "theorems": [
    "Aerokit.Props.C01_mach_roundtrip",
    "Aerokit.Props.C01_ratio_roundtrip",
    "Aerokit.Props.C01_below_one"
   ],
   "note": ""
  },
  {
   "property": "C02",
   "status": "proved",
   "theorems": [
    "Aerokit.Props.C02_mach_roundtrip",
    "Aerokit.Props.C02_ratio_roundtrip",
    "Aerokit.Props.C02_below_one"
   ],
   "note": ""
  },
  {
   "property": "C03",
   "status": "proved",
   "theorems": [
    "Aerokit.Props.C03_isentropic_law",
    "Aerokit.Props.C03_at_least_one",
    "Aerokit.Props.C03_strictly_increasing"
   ],
   "note": ""
  },
  {
   "property": "C04",
   "status": "proved",
   "theorems": [
    "Aerokit.Props.C04_total_enthalpy"
   ],
   "note": ""
  },
  {
   "property": "C05",
   "status": "proved",
   "theorems": [
    "Aerokit.Props.C05_sigma_is_massflow_ratio"
   ],
   "note": ""
  },
  {
   "property": "C06",
   "status": "proved",
   "theorems": [
    "Aerokit.Props.C06_minimum_at_throat",
    "Aerokit.Props.C06_decreasing_subsonic",
    "Aerokit.Props.C06_increasing_supersonic"
   ],
   "note": ""
  },
  {
   "property": "C07",
   "status": "proved",
   "theorems": [
    "Aerokit.Props.C07_two_solutions",
    "Aerokit.Props.C07_no_other_solution",
    "Aerokit.Props.C07_returned_value_is_a_solution",
    "Aerokit.Props.C07_subsonic_roundtrip",
    "Aerokit.Props.C07_supersonic_roundtrip"
   ],
   "note": ""
  },
  {
   "property": "C08",
   "status": "partial",
   "theorems": [
    "Aerokit.Props.C08_guess_sides",
    "Aerokit.Props.C08_sub_guess_positive_partial",
    "Aerokit.Props.C08_negative_guess",
    "Aerokit.Props.C08_fails_above_three"
   ],
   "note": "C08_sub_guess_positive_partial: C08 (the part that holds): the subsonic guess is a positive Mach number for every area ratio exactly when `\u03b3 \u2264 7/5`. Missing with respect to the property: `7/5 < \u03b3 < 3`, where it is false."
  },
  {
   "property": "C09",
   "status": "proved",
   "theorems": [
    "Aerokit.Props.C09_rankine_hugoniot"
   ],
   "note": ""
  },
  {
   "property": "C10",
   "status": "proved",
   "theorems": [
    "Aerokit.Props.C10_mach_roundtrip",
    "Aerokit.Props.C10_pressure_roundtrip"
   ],
   "note": ""
  },
  {
   "property": "C11",
   "status": "proved",
   "theorems": [
    "Aerokit.Props.C11_involution",
    "Aerokit.Props.C11_outside_domain",
    "Aerokit.Props.C11_strictly_decreasing",
    "Aerokit.Props.C11_exchanges_sub_and_supersonic"
   ],
   "note": ""
  },
  {
   "property": "C12",
   "status": "partial",
   "theorems": [
    "Aerokit.Props.C12_default_gas_partial",
    "Aerokit.Props.C12_second_law_of_components",
    "Aerokit.Props.C12_false_for_other_gamma"
   ],
   "note": "C12_default_gas_partial: C12, at the default gas (\u03b3 = 1.4): the total pressure ratio is the one of the composed functions, is at most 1, equal to 1 exactly at `Mn = 1`. Missing: other values of `gamma`. | C12_false_for_other_gamma: C12 is false of the code: with `gamma = 1.2` a sonic \"shock\" (no shock at all) is reported to *increase* the total pressure."
  },
  {
   "property": "C13",
   "status": "proved",
   "theorems": [
    "Aerokit.Props.C13_bounds",
    "Aerokit.Props.C13_strictly_increasing"
   ],
   "note": ""
  },
  {
   "property": "C14",
   "status": "proved",
   "theorems": [
    "Aerokit.Props.C14_theta_beta_mach",
    "Aerokit.Props.C14_sign"
   ],
   "note": ""
  },
  {
   "property": "C15",
   "status": "proved",
   "theorems": [
    "Aerokit.Props.C15_attached",
    "Aerokit.Props.C15_detached"
   ],
   "note": ""
  },
  {
   "property": "C16",
   "status": "proved",
   "theorems": [
    "Aerokit.Props.C16_sonic_downstream",
    "Aerokit.Props.C16_mach_one"
   ],
   "note": ""
  },
  {
   "property": "C17",
   "status": "proved",
   "theorems": [
    "Aerokit.Props.C17_max_deflection"
   ],
   "note": ""
  },
  {
   "property": "C18",
   "status": "proved",
   "theorems": [
    "Aerokit.Props.C18_downstream_mach"
   ],
   "note": ""
  },
  {
   "property": "C19",
   "status": "proved",
   "theorems": [
    "Aerokit.Props.C19_zero_at_sonic",
    "Aerokit.Props.C19_strictly_increasing",
    "Aerokit.Props.C19_bounds",
    "Aerokit.Props.C19_subsonic",
    "Aerokit.Props.C19_bijective"
   ],
   "note": ""
  },
  {
   "property": "C20",
   "status": "proved",
   "theorems": [
    "Aerokit.Props.C20_inverse"
   ],
   "note": ""
  },
  {
   "property": "C21",
   "status": "proved",
   "theorems": [
    "Aerokit.Props.C21_omega_roundtrip",
    "Aerokit.Props.C21_pressure_deflection"
   ],
   "note": ""
  },
  {
   "property": "C22",
   "status": "proved",
   "theorems": [
    "Aerokit.Props.C22_consistent",
    "Aerokit.Props.C22_critical_point"
   ],
   "note": ""
  },
  {
   "property": "C23",
   "status": "proved",
   "theorems": [
    "Aerokit.Props.C23_friction_nonneg",
    "Aerokit.Props.C23_friction_monotone",
    "Aerokit.Props.C23_entropy_max"
   ],
   "note": ""
  },
  {
   "property": "C24",
   "status": "proved",
   "theorems": [
    "Aerokit.Props.C24_consistent",
    "Aerokit.Props.C24_critical_point"
   ],
   "note": ""
  },
  {
   "property": "C25",
   "status": "proved",
   "theorems": [
    "Aerokit.Props.C25_choking",
    "Aerokit.Props.C25_monotone",
    "Aerokit.Props.C25_entropy_max",
    "Aerokit.Props.C25_static_temperature_peak"
   ],
   "note": ""
  },
  {
   "property": "C26",
   "status": "proved",
   "theorems": [
    "Aerokit.Props.C26_sub_left_inverse",
    "Aerokit.Props.C26_sup_left_inverse",
    "Aerokit.Props.C26_sub_right_inverse",
    "Aerokit.Props.C26_sup_right_inverse"
   ],
   "note": ""
  },
  {
   "property": "C27",
   "status": "partial",
   "theorems": [
    "Aerokit.Props.C27_default_gas_partial",
    "Aerokit.Props.C27_false_otherwise"
   ],
   "note": "C27_default_gas_partial: C27, the part that holds: at `gamma = 1.4` the maximum heating ratio is `1/(Ti/Ti_cri)`. Missing: every other gamma (see `C27_false_otherwise`). | C27_false_otherwise: C27 is false of the code: for every `gamma \u2260 1.4` and every `M \u2260 1` the product of the maximum heating ratio and of the heating ratio at that gamma is not 1 (the argument gamma is ignored)."
  },
  {
   "property": "C28",
   "status": "proved",
   "theorems": [
    "Aerokit.Props.C28_at_most_20_evaluations",
    "Aerokit.Props.C28_returns_secant_iterate",
    "Aerokit.Props.C28_affine_exact",
    "Aerokit.Props.C28_affine_exact_default"
   ],
   "note": ""
  },
  {
   "property": "C29",
   "status": "partial",
   "theorems": [
    "Aerokit.Props.C29_false",
    "Aerokit.Props.C29_witness",
    "Aerokit.Props.C29_large_start_partial"
   ],
   "note": "C29_false: C29 is false of the code: for EVERY function `f` and every target `y`, a start with `|x| \u2264 0.01` (in particular `x = 0`) is returned as `0.999 x`, with no iteration and no warning. | C29_large_start_partial: C29, the part that holds: outside the dead zone at least one secant update is made (the result is not the untouched `0.999 x` pair). Missing: `|x| \u2264 0.01`."
  },
  {
   "property": "C30",
   "status": "proved",
   "theorems": [
    "Aerokit.Props.C30_samples",
    "Aerokit.Props.C30_increasing",
    "Aerokit.Props.C30_terminates",
    "Aerokit.Props.C30_nonterminating"
   ],
   "note": ""
  },
  {
   "property": "C31",
   "status": "proved",
   "theorems": [
    "Aerokit.Props.C31_exact_cubic",
    "Aerokit.Props.C31_linear",
    "Aerokit.Props.C31_constant"
   ],
   "note": ""
  },
  {
   "property": "C32",
   "status": "proved",
   "theorems": [
    "Aerokit.Props.C32_exact_quartic",
    "Aerokit.Props.C32_zero_error_cubic",
    "Aerokit.Props.C32_linear"
   ],
   "note": ""
  },
  {
   "property": "C33",
   "status": "partial",
   "theorems": [
    "Aerokit.Props.C33_no_overshoot",
    "Aerokit.Props.C33_reaches_xStop_partial",
    "Aerokit.Props.C33_cubic_exact",
    "Aerokit.Props.C33_false",
    "Aerokit.Props.C33_initial_overshoot"
   ],
   "note": "C33_reaches_xStop_partial: C33, the part that holds: if the error test never rejects a step, the last sample is exactly at `xStop` unless the budget of 10000 iterations is used up. Missing: runs with a rejected step, for which the claim is false (`C33_false`). | C33_false: C33 is false of the code: after a rejected last step the flag `stopper` stays set, so the run ends at the next accepted step. Here, on `[0, 1]` with `h = 0.5`, `tol = 1e-6`, the run stops (after 3 of its 10000 iterations) at `x = 0.725`."
  },
  {
   "property": "C34",
   "status": "proved",
   "theorems": [
    "Aerokit.Props.C34_last_set",
    "Aerokit.Props.C34_restore_gives_last_save",
    "Aerokit.Props.C34_values_after_restore",
    "Aerokit.Props.C34_restore_without_save",
    "Aerokit.Props.C34_initial_values"
   ],
   "note": ""
  },
  {
   "property": "C35",
   "status": "partial",
   "theorems": [
    "Aerokit.Props.C35_false_frozen",
    "Aerokit.Props.C35_false",
    "Aerokit.Props.C35_before_import_partial"
   ],
   "note": "C35_false_frozen: C35 is false of the code, in the strongest sense: once a module is imported, the gamma its functions use when `gamma` is omitted never changes again, whatever calls to `set_gamma`, `restore_default`, \u2026 or other imports follow. | C35_false: C35: concretely, importing any module and then calling `set_gamma(g)` for any `g \u2260 1.4` leaves its functions at 1.4 although `defaultgas.gamma()` answers `g`. | C35_before_import_partial: C35, the part that holds: a `set_gamma(g)` made before the first import of a module (not already loaded through another one) is used by its functions. Missing: any later `set_gamma`."
  },
  {
   "property": "C36",
   "status": "proved",
   "theorems": [
    "Aerokit.Props.C36_refines_map",
    "Aerokit.Props.C36_accessors",
    "Aerokit.Props.C36_add_set"
   ],
   "note": ""
  },
  {
   "property": "C37",
   "status": "proved",
   "theorems": [
    "Aerokit.Props.C37_pristine_restart",
    "Aerokit.Props.C37_builtin_unchanged",
    "Aerokit.Props.C37_names_IC3",
    "Aerokit.Props.C37_names_OpenFOAM"
   ],
   "note": ""
  },
  {
   "property": "C38",
   "status": "partial",
   "theorems": [
    "Aerokit.Props.C38_false",
    "Aerokit.Props.C38_recovers_partial"
   ],
   "note": "C38_false: C38 is false of the code: from every reachable state, a request for an unknown software raises `ValueError` AND empties the current database: every name becomes undefined. | C38_recovers_partial: C38, the part that holds: the failure is reported by `ValueError` and a later valid request recovers the pristine table. Missing: the current database does not survive."
  },
  {
   "property": "C39",
   "status": "partial",
   "theorems": [
    "Aerokit.Props.C39_software_case_insensitive",
    "Aerokit.Props.C39_variables_false",
    "Aerokit.Props.C39_software_partial"
   ],
   "note": "C39_variables_false: C39 (variables) is false of the code: at import `dv['u_avg']` is defined and `dv['U_avg']` raises `ValueError`. | C39_software_partial: C39 (software names), the part that holds. Missing: variable names (`C39_variables_false`)."
  },
  {
   "property": "C40",
   "status": "proved",
   "theorems": [
    "Aerokit.Props.C40_nodes",
    "Aerokit.Props.C40_inverse",
    "Aerokit.Props.C40_gauss_lobatto"
   ],
   "note": ""
  },
  {
   "property": "C41",
   "status": "proved",
   "theorems": [
    "Aerokit.Props.C41_exact",
    "Aerokit.Props.C41_order_zero",
    "Aerokit.Props.C41_constant"
   ],
   "note": ""
  },
  {
   "property": "C42",
   "status": "proved",
   "theorems": [
    "Aerokit.Props.C42_history",
    "Aerokit.Props.C42_lazy"
   ],
   "note": ""
  },
  {
   "property": "C43",
   "status": "proved",
   "theorems": [
    "Aerokit.Props.C43_extrapol",
    "Aerokit.Props.C43_fit"
   ],
   "note": ""
  },
  {
   "property": "C44",
   "status": "partial",
   "theorems": [
    "Aerokit.Props.C44_first_partial",
    "Aerokit.Props.C44_stale_false",
    "Aerokit.Props.C44_false",
    "Aerokit.Props.C44_after_exception_false"
   ],
   "note": "C44_first_partial: C44 (what holds): whenever `get_RHS_time_matrices` computes the matrices (`_B is None`: no successful or failed computation happened before) and returns, their interior rows are the Jacobian at the current base state. | C44_stale_false: the general defect: once matrices are stored, any number of `set_basestate`/`set_BC` calls leaves `get_RHS_time_matrices` (hence `solve_eig` and `converge_eigenpair`) with the old matrices. | C44_false: C44 fails: on 3 points, solve with a fluid at rest, then set a base state moving at velocity 1: the matrices returned are not those of the current base state (the Jacobian applied to the density perturbation `x` is `-1`, the row gives 0). | C44_after_exception_false: C44 also fails after an exception: asking for the matrices before `set_BC` raises ValueError, but the next request, made after a valid `set_BC`, silently returns matrices without any boundary condition (`At` is the identity)."
  },
  {
   "property": "C45",
   "status": "proved",
   "theorems": [
    "Aerokit.Props.C45_set_BC",
    "Aerokit.Props.C45_apply",
    "Aerokit.Props.C45_RH_keywords"
   ],
   "note": ""
  },
  {
   "property": "C46",
   "status": "proved",
   "theorems": [
    "Aerokit.Props.C46_jacobian",
    "Aerokit.Props.C46_uniform"
   ],
   "note": ""
  },
  {
   "property": "C47",
   "status": "proved",
   "theorems": [
    "Aerokit.Props.C47_periodic",
    "Aerokit.Props.C47_symmetry"
   ],
   "note": ""
  },
  {
   "property": "C48",
   "status": "partial",
   "theorems": [
    "Aerokit.Props.C48_periodic_partial",
    "Aerokit.Props.C48_false",
    "Aerokit.Props.C48_same_dict_false"
   ],
   "note": "C48_periodic_partial: C48 for periodic conditions: any number of `Euler1D.compute_operators` calls succeeds and gives the same matrices. | C48_false: C48 fails for symmetry conditions: the first `Euler1D.compute_operators` succeeds, the second raises KeyError (the dictionaries have lost their type), and leaves in `_B`, `_At` matrices without boundary conditions, which `get_RHS_time_matrices` then returns. | C48_same_dict_false: C48 fails for a dictionary used on both sides: KeyError at the first computation."
  },
  {
   "property": "C49",
   "status": "partial",
   "theorems": [
    "Aerokit.Props.C49_right_false",
    "Aerokit.Props.C49_left_partial"
   ],
   "note": "C49_right_false: C49 fails on the right: after any history, if `set_BC(L, R)` accepted a right condition named `RH`, then `compute_operators` raises, whatever the left condition, the base state and the parameters. | C49_left_partial: C49 on the left: with a dictionary `{\"type\": \"RH\", \"dM0dx\": m}` on the left and `\"sym\"` on the right, `compute_operators` succeeds whenever the first point is an admissible state for a normal shock (`M\u00b2 > 1/7` with the default gamma) and gives two square matrices with one additional unknown."
  },
  {
   "property": "C50",
   "status": "proved",
   "theorems": [
    "Aerokit.Props.C50_operator",
    "Aerokit.Props.C50_Poiseuille"
   ],
   "note": ""
  },
  {
   "property": "C51",
   "status": "proved",
   "theorems": [
    "Aerokit.Props.C51_set_basestate",
    "Aerokit.Props.C51_init"
   ],
   "note": ""
  },
  {
   "property": "C52",
   "status": "proved",
   "theorems": [
    "Aerokit.Props.C52_select",
    "Aerokit.Props.C52_errors"
   ],
   "note": ""
  },
  {
   "property": "C53",
   "status": "proved",
   "theorems": [
    "Aerokit.Props.C53_unit",
    "Aerokit.Props.C53_exact",
    "Aerokit.Props.C53_zero"
   ],
   "note": ""
  },
  {
   "property": "C54",
   "status": "partial",
   "theorems": [
    "Aerokit.Props.C54_M_partial",
    "Aerokit.Props.C54_M_default_partial",
    "Aerokit.Props.C54_false",
    "Aerokit.Props.C54_u_partial",
    "Aerokit.Props.C54_p_partial"
   ],
   "note": "C54_M_partial: C54 (partial): `compute_from_pt_rtt_M` yields density, velocity and pressure of the state with the given total pressure, total temperature and Mach number, for every gamma > 1 -- but that is only true of a state carrying the original gamma, and the method resets `_gamma` to the default. | C54_M_default_partial: C54 for the default gamma: all three inputs are reproduced. | C54_false: C54 is false for every other gamma (and `M \u2260 0`): the new state has another Mach number and another total temperature. | C54_u_partial: C54 (partial, velocity form): for every gamma, up to the reset of `_gamma`. | C54_p_partial: C54 (partial, pressure form): for every gamma, up to the reset of `_gamma`; the velocity is nonnegative as documented."
  },
  {
   "property": "C55",
   "status": "proved",
   "theorems": [
    "Aerokit.Props.C55_RH"
   ],
   "note": ""
  },
  {
   "property": "C56",
   "status": "partial",
   "theorems": [
    "Aerokit.Props.C56_total_temperature_partial",
    "Aerokit.Props.C56_false",
    "Aerokit.Props.C56_false_gamma",
    "Aerokit.Props.C56_false_witness"
   ],
   "note": "C56_total_temperature_partial: C56 (partial): `state_isentropic_Mach` keeps the total temperature and reaches the requested Mach number when gamma is the default one. | C56_false: C56 is false: even for the default gamma, the total pressure of the new state is the value of `rTtot` of the old one, so it is kept only for states whose total pressure equals `r\u00b7Ttot`. | C56_false_gamma: C56 also loses gamma: the result always carries the default gamma. | C56_false_witness: a state at rest with unit density: `rTtot = 100000 = Ptot` only because `rho = 1`; with `rho = 1.2` they differ, so the total pressure is not kept"
  },
  {
   "property": "C57",
   "status": "proved",
   "theorems": [
    "Aerokit.Props.C57_left",
    "Aerokit.Props.C57_right"
   ],
   "note": ""
  },
  {
   "property": "C58",
   "status": "proved",
   "theorems": [
    "Aerokit.Props.C58_expansion"
   ],
   "note": ""
  },
  {
   "property": "C59",
   "status": "proved",
   "theorems": [
    "Aerokit.Props.C59_monotone",
    "Aerokit.Props.C59_root_iff",
    "Aerokit.Props.C59_unique",
    "Aerokit.Props.C59_solution",
    "Aerokit.Props.C59_constructs"
   ],
   "note": ""
  },
  {
   "property": "C60",
   "status": "proved",
   "theorems": [
    "Aerokit.Props.C60_waves",
    "Aerokit.Props.C60_jumps"
   ],
   "note": ""
  },
  {
   "property": "C61",
   "status": "partial",
   "theorems": [
    "Aerokit.Props.C61_qsol_partial",
    "Aerokit.Props.C61_false",
    "Aerokit.Props.C61_gamma_partial",
    "Aerokit.Props.C61_false_gamma"
   ],
   "note": "C61_qsol_partial: C61 (partial: every `x/t` except the inner edge of a right expansion): the solution is `qL` left of the left wave, the two star states around the contact, `qR` right of the right wave, and the simple wave (with pressure strictly between the two sides) inside expansions. | C61_false: C61 is false at the inner edge of a right expansion: there `qsol` returns the *left* state. | C61_gamma_partial: C61, gamma of the solution: it is the gamma of the left state for `x/t < 0` and of the right state otherwise. | C61_false_gamma: C61 is false for two gases: between `x/t = 0` and the contact (moving right), `qsol` returns the density, velocity and pressure of the left star state with the gamma of the *right* gas."
  },
  {
   "property": "C62",
   "status": "proved",
   "theorems": [
    "Aerokit.Props.C62_mirror",
    "Aerokit.Props.C62_galilean",
    "Aerokit.Props.C62_galilean_qsol",
    "Aerokit.Props.C62_mirror_qsol"
   ],
   "note": ""
  },
  {
   "property": "C63",
   "status": "proved",
   "theorems": [
    "Aerokit.Props.C63_exact"
   ],
   "note": ""
  },
  {
   "property": "C64",
   "status": "partial",
   "theorems": [
    "Aerokit.Props.C64_inflow_partial",
    "Aerokit.Props.C64_default_partial",
    "Aerokit.Props.C64_estimate",
    "Aerokit.Props.C64_false_fastest"
   ],
   "note": "C64_inflow_partial: C64 (partial), for every gamma: when the star velocity is below the limit velocity of the total temperature, the left star state has the pressure and velocity of the right star state, and total conditions `(pt0, rtt0)` if the original gamma is put back (the code resets it); the right star state is joined to the initial state by the C+ wave. | C64_default_partial: C64 (partial), default gamma: the total conditions are reached and pressure and velocity are continuous, unconditionally. | C64_false_fastest: C64 is false: after any sequence of calls `solve_with_pt0_rtt0` (any solver, any arguments, failed calls leaving the object as it was), `left_fastest` and `right_fastest` raise AttributeError."
  },
  {
   "property": "C65",
   "status": "proved",
   "theorems": [
    "Aerokit.Props.C65_ordered"
   ],
   "note": ""
  },
  {
   "property": "C66",
   "status": "partial",
   "theorems": [
    "Aerokit.Props.C66_mass_partial",
    "Aerokit.Props.C66_other_regimes",
    "Aerokit.Props.C66_adapted_continuous_partial",
    "Aerokit.Props.C66_false"
   ],
   "note": "C66_mass_partial: C66 (partial: the default gas has not been changed since import): between the two limits the exit Mach number of `Ms_from_AsAc_NPR` is subsonic, above the choked-subsonic one, not above the downstream Mach number of a shock at the exit, and conserves the mass flow of the sonic throat: exit section \u00d7 exit total pressure \u00d7 flux at `Ms` = throat flux. It is the only Mach number that does. | C66_adapted_continuous_partial: C66 (partial: default gas not changed): the Mach number of the adapted jet is a continuous function of the pressure ratio across all four regimes. | C66_false: C66 is false once the default gas is changed (as the module docstring tells the user to do): `Ms_from_AsAc_NPR` reads the current `defg._gamma` (here 3) while the limits use the value captured at import; for every area ratio the exit Mach number at `NPR0` is not the choked-subsonic one."
  },
  {
   "property": "C67",
   "status": "partial",
   "theorems": [
    "Aerokit.Props.C67_choked_profile_partial",
    "Aerokit.Props.C67_limits_ignore_gamma_false",
    "Aerokit.Props.C67_false"
   ],
   "note": "C67_choked_profile_partial: C67 (partial: only the choking profile): with any `gamma` accepted by the area-ratio solver, at pressure ratios beyond the shock-at-exit one the Mach number profile has the area ratio of the section law FOR THAT gamma, subsonic up to the throat and supersonic after it. | C67_limits_ignore_gamma_false: C67 is false: the regime limits of a nozzle do not depend on `gamma` at all ... | C67_false: ... and for the monatomic gas `gamma = 5/3` and a nozzle of exit area ratio 169/128 whose choked-subsonic exit Mach number is 1/2, `NPR0` is not the total over static pressure ratio at Mach 1/2."
  },
  {
   "property": "C68",
   "status": "partial",
   "theorems": [
    "Aerokit.Props.C68_current_partial",
    "Aerokit.Props.C68_false"
   ],
   "note": "C68_current_partial: C68 (partial): building a nozzle, successfully or not, never changes the CURRENT gas constants. | C68_false: C68 is false: the slot used by `save_default`/`restore_default` is overwritten, so a user's own saved gas is lost: after save, change, build a nozzle, `restore_default()` no longer gives back the saved gamma."
  },
  {
   "property": "C69",
   "status": "partial",
   "theorems": [
    "Aerokit.Props.C69_geometry",
    "Aerokit.Props.C69_shape",
    "Aerokit.Props.C69_subsonic_partial",
    "Aerokit.Props.C69_shock_partial",
    "Aerokit.Props.C69_supersonic_total_pressure",
    "Aerokit.Props.C69_false_convergent",
    "Aerokit.Props.C69_false_shock_at_throat",
    "Aerokit.Props.C69_false_witness"
   ],
   "note": "C69_subsonic_partial: C69 (partial: default gamma), subsonic regime: the flow is subsonic everywhere, total pressure is uniform, every point has the mass flow of the exit (`Sigma(M_i)/Sigma(M_exit)` is the ratio of sections), and the exit has the requested pressure ratio. | C69_shock_partial: C69 (partial: default gamma; and `set_NPR` must have returned, see `C69_false_shock_at_throat`), shock in the diffuser: there is a shock index after which the total pressure is the loss computed from the exit Mach number and the flow is subsonic with the mass flow of the throat; before it the flow is the choked isentropic one. The exit Mach number is the one of `Ms_from_AsAc_NPR` and the exit static pressure is the requested one. | C69_false_convergent: C69 is false for a convergent nozzle (throat at the exit): no choked flow can be computed, `set_NPR` raises for every pressure ratio from `NPR0` on. | C69_false_shock_at_throat: C69 is false when the shock stands near the throat: if the point whose Mach number is closest to the shock Mach number is the throat (or any point where the area ratio is below 1/loss), `set_NPR` cannot return a profile. | C69_false_witness: C69 fails on a real case: there are a solver that finds every root, a section law `[A, 1, A]`, and a pressure ratio strictly between `NPR0` and `NPRsw` (shock of Mach number 1.5 in the diffuser) for which the nozzle object is built but `set_NPR` raises."
  },
  {
   "property": "C70",
   "status": "partial",
   "theorems": [
    "Aerokit.Props.C70_combustion_partial",
    "Aerokit.Props.C70_combustion_false",
    "Aerokit.Props.C70_eta_cc_ignored",
    "Aerokit.Props.C70_shaft",
    "Aerokit.Props.C70_components",
    "Aerokit.Props.C70_before_use"
   ],
   "note": "C70_combustion_partial: **C70 (combustion), partial.** After any history of calls, a successful `update` leaves a fuel to air ratio that balances the combustion chamber \u2014 but with `xi_cc` (the total pressure loss coefficient) in the place of the combustion efficiency `eta_cc`. Missing: the balance with the constructor argument `eta_cc`, which is false (`C70_combustion_false`), except when both are equal. | C70_combustion_false: **C70 (combustion) is false of the code**: the constructor argument `eta_cc` is dropped. With `eta_cc = 0.9` the stored fuel to air ratio does not balance the chamber."
  },
  {
   "property": "C71",
   "status": "partial",
   "theorems": [
    "Aerokit.Props.C71_turbojet_nozzle",
    "Aerokit.Props.C71_turbojet_efficiencies",
    "Aerokit.Props.C71_turbojet_sfc",
    "Aerokit.Props.C71_turbofan",
    "Aerokit.Props.C71_turbofan_efficiencies",
    "Aerokit.Props.C71_turbofan_xi_nozzle_false"
   ],
   "note": "C71_turbofan_xi_nozzle_false: **C71 (turbofan nozzles) is false of the code**: the constructor argument `xi_nozzle` is dropped. A feasible turbofan built with `xi_nozzle = 0.9` has no nozzle loss."
  },
  {
   "property": "C72",
   "status": "partial",
   "theorems": [
    "Aerokit.Props.C72_fixe_values",
    "Aerokit.Props.C72_fixe_no_error",
    "Aerokit.Props.C72_fixe_recompute",
    "Aerokit.Props.C72_fixe_complete_partial",
    "Aerokit.Props.C72_fixe_complete_false",
    "Aerokit.Props.C72_fixe_show_false",
    "Aerokit.Props.C72_calcule_values",
    "Aerokit.Props.C72_calcule_no_error",
    "Aerokit.Props.C72_calcule_recompute",
    "Aerokit.Props.C72_calcule_complete_partial",
    "Aerokit.Props.C72_calcule_complete_false",
    "Aerokit.Props.C72_calcule_show_false"
   ],
   "note": "C72_fixe_complete_partial: `calculs_5_to_9` alone completes the cycle after every history without `InitialValues`. (Partial: the intended property has no restriction on the history, see the next theorem.) | C72_fixe_complete_false: Running `InitialValues` again resets the progress counter: `calculs_5_to_9` then computes nothing, without an error. | C72_fixe_show_false: Running the stages one by one without `perfo`, then `show_perfo`, raises `AttributeError`. | C72_calcule_complete_partial: `calculs_5_to_9` alone completes the cycle after every history without `InitialValues`. (Partial: the intended property has no restriction on the history, see the next theorem.) | C72_calcule_complete_false: Running `InitialValues` again resets the progress counter: `calculs_5_to_9` then computes nothing, without an error. | C72_calcule_show_false: Running the stages one by one without `perfo`, then `show_perfo`, raises `AttributeError`."
  },
  {
   "property": "C73",
   "status": "partial",
   "theorems": [
    "Aerokit.Props.C73_fixe_witness_false",
    "Aerokit.Props.C73_double",
    "Aerokit.Props.C73_double_object",
    "Aerokit.Props.C73_fixe_partial",
    "Aerokit.Props.C73_fixe_false"
   ],
   "note": "C73_fixe_witness_false: Hypotheses of `C73_fixe_false`: class and script both return, and give different results. | C73_fixe_partial: With a fan pressure ratio of one, `cycle_taux_fan_fixe` and `propu_be.calculs` agree. (Partial: the intended property is for every fan pressure ratio, see the next theorem.) | C73_fixe_false: For every fan with a pressure ratio above one, the class and the script disagree: the class uses the efficiency of the core compressor for the fan."
  },
  {
   "property": "C74",
   "status": "partial",
   "theorems": [
    "Aerokit.Props.C74_gamma",
    "Aerokit.Props.C74_enthalpy_partial",
    "Aerokit.Props.C74_enthalpy_false",
    "Aerokit.Props.C74_phi",
    "Aerokit.Props.C74_kerosen_enthalpy_partial",
    "Aerokit.Props.C74_kerosen_phi",
    "Aerokit.Props.C74_kerosen_heating_value",
    "Aerokit.Props.C74_kerosen_heating_numbers"
   ],
   "note": "C74_enthalpy_partial: C74 (real gas): the derivative of `Enthalpy` is `Cp` up to the rounding of the tabulated coefficient, exactly `r\u00b710\u207b\u00b9\u00b2\u00b7T\u00b2`. (The full claim `= Cp` is false, next theorem.) | C74_enthalpy_false: C74 is false as stated for the real gas: `Cp` is not the derivative of `Enthalpy`. | C74_kerosen_enthalpy_partial: C74 (kerosene): derivative of `Enthalpy`: `Cp` up to `r\u00b74\u00b710\u207b\u00b9\u00b2\u00b7T\u00b2`."
  },
  {
   "property": "C75",
   "status": "partial",
   "theorems": [
    "Aerokit.Props.C75_explicit",
    "Aerokit.Props.C75_omitted_values",
    "Aerokit.Props.C75_aliases",
    "Aerokit.Props.C75_omitted_partial",
    "Aerokit.Props.C75_false"
   ],
   "note": "C75_omitted_partial: C75, omitted `gamma`: legacy and new agree in every process in which the default was not changed before the new modules were imported (whatever happens afterwards). | C75_false: C75 is false for omitted `gamma` when `set_gamma` is called before the first import: the new function uses the modified default, the legacy one the literal 1.4."
  },
  {
   "property": "C76",
   "status": "proved",
   "theorems": [
    "Aerokit.Props.C76_pythagoras",
    "Aerokit.Props.C76_shift",
    "Aerokit.Props.C76_cardinal",
    "Aerokit.Props.C76_asin",
    "Aerokit.Props.C76_acos",
    "Aerokit.Props.C76_atan",
    "Aerokit.Props.C76_atan2"
   ],
   "note": ""
  },
  {
   "property": "C77",
   "status": "partial",
   "theorems": [
    "Aerokit.Props.C77_outcome",
    "Aerokit.Props.C77_database_unchanged",
    "Aerokit.Props.C77_denominations",
    "Aerokit.Props.C77_values",
    "Aerokit.Props.C77_mx_partial",
    "Aerokit.Props.C77_all_denominations_false",
    "Aerokit.Props.C77_mx_false",
    "Aerokit.Props.C77_compound_false",
    "Aerokit.Props.C77_Pt_is_PtPs_Mach"
   ],
   "note": "C77_mx_partial: C77 (axial Mach number), proved part: the formula of `Mx` has the value `Vx/a` when the axial velocity is denominated `U_X`. Missing: any other denomination, see `C77_mx_false`. | C77_all_denominations_false: C77, false part (names that are kept): \"the returned dictionary contains the denominations of the database\" fails for `V` and `T`, whose entries are replaced by formulas. | C77_mx_false: C77, false part (axial Mach number): after `setVar('Vx', 'VX')`, on a data set holding exactly the denominated fields, the formula of `Mx` has no value (it names the field `U_X`), although every other hypothesis of `C77_values` holds. | C77_compound_false: C77, false part (denominations are pasted without parentheses): with the pressure denominated by a sum, `setVar('P', 'PG+100000')`, the formula of the temperature has not the value `(PG + 100000)/(287.1 RHO)`: only the constant is divided."
  },
  {
   "property": "C78",
   "status": "partial",
   "theorems": [
    "Aerokit.Props.C78_closed_form",
    "Aerokit.Props.C78_minimum",
    "Aerokit.Props.C78_monotone",
    "Aerokit.Props.C78_inverse_partial",
    "Aerokit.Props.C78_inverse_false",
    "Aerokit.Props.C78_search_supersonic",
    "Aerokit.Props.C78_search_default",
    "Aerokit.Props.C78_search_below",
    "Aerokit.Props.C78_search_subsonic"
   ],
   "note": "C78_inverse_partial: C78: `Mach_ThrustFunction` recovers a Mach number it is started from (M > 0.01, away from the double root around 1). | C78_inverse_false: C78 is false in full: with a small starting Mach number the returned value does not satisfy the equation (`thrust` is never looked at)."
  },
  {
   "property": "C79",
   "status": "partial",
   "theorems": [
    "Aerokit.Props.C79_importable_partial",
    "Aerokit.Props.C79_false"
   ],
   "note": "C79_importable_partial: C79 (the part that holds): with the third-party packages installed, after any history (any contents of `sys.modules`), importing any module other than `aero.Propulsion` and `common.extendvar` succeeds, and leaves the module loaded. | C79_false: C79 is false: in every environment that has no stray top-level `dicovar` (resp. no `aerokit.IterativeSolve`), after any history of imports, importing `common.extendvar` (resp. `aero.Propulsion`) fails."
  },
  {
   "property": "C80",
   "status": "proved",
   "theorems": [
    "Aerokit.Props.C80_conical",
    "Aerokit.Props.C80_fuel",
    "Aerokit.Props.C80_assert"
   ],
   "note": ""
  },
  {
   "property": "C81",
   "status": "partial",
   "theorems": [
    "Aerokit.Props.C81_linearised_partial",
    "Aerokit.Props.C81_false"
   ],
   "note": "C81_linearised_partial: C81 (what holds): with a left `RH` condition, the three boundary equations (rows 0, 3n and 2n of `B v = At w`) are the linearisation of the jump relations of a moving shock: `v (3n)` is the shock displacement, `w (3n)` its velocity, `v 0, v n, v (2n)` are the downstream perturbations; the upstream Mach number is `M0 + m * displacement - velocity / a0`, the downstream state is moved along its gradient. Missing: the upstream gradient `G` is only known to be `(q0p - q0)/dx` where `q0p` is returned by `state_isentropic_Mach` at `M0 + m dx`, which is not the gradient of the upstream flow (see `C81_false`); gamma is the default one whatever the base state (`__getitem__` drops it). | C81_false: C81 fails: a steady shock between two uniform flows (`\u03c1 = 4` upstream, `\u03c1 = 14` downstream, no upstream gradient: `dM0dx = 0`) may be moved without changing any flow quantity, but the density boundary equation is not satisfied by a pure displacement (`v` is zero except the displacement, `w = 0`): the flow perturbations are coupled to the position of the shock through the defect of `state_isentropic_Mach`."
  },
  {
   "property": "C82",
   "status": "partial",
   "theorems": [
    "Aerokit.Props.C82_index_partial",
    "Aerokit.Props.C82_false"
   ],
   "note": "C82_index_partial: C82 (what holds): `q[k]` and `q[k - n]` are the state at point `k` (density, velocity, pressure), any other index raises IndexError, and indexing a scalar state raises AssertionError. Missing: gamma (see `C82_false`). | C82_false: C82 fails for gamma: the state of a point of a flow of any other gas has gamma 1.4, and a different Mach number."
  },
  {
   "property": "C83",
   "status": "partial",
   "theorems": [
    "Aerokit.Props.C83_false",
    "Aerokit.Props.C83_no_basestate_partial",
    "Aerokit.Props.C83_orrsommerfeld_false"
   ],
   "note": "C83_false: C83 fails: the same final configuration (a base state and periodic conditions) gives different matrices according to whether a request was made, and failed, before the boundary conditions were set: the first row of `At` is zero (boundary equation) in one case, the identity in the other. | C83_no_basestate_partial: C83 for calls that fail before any array is stored: without base state, requests fail and leave the operators unset, so that later requests are not affected. | C83_orrsommerfeld_false: C83 fails for `OrrSommerfeldModel` too: computing before `set_BC` raises `TypeError` but leaves the matrices without boundary rows, which `get_RHS_time_matrices` then returns, even after walls have been set: the wall rows are not imposed."
  },
  {
   "property": "C84",
   "status": "partial",
   "theorems": [
    "Aerokit.Props.C84_equal_gamma_partial",
    "Aerokit.Props.C84_two_gases_false"
   ],
   "note": "C84_equal_gamma_partial: C84 (equal gammas): whenever the Riemann problem has a solution (no vacuum), the initial guess handed to the root finder is a positive number. | C84_two_gases_false: C84 fails for two gases: gamma 1.5 and 3, same pressure and sound speed, moving apart at velocity 4: the Riemann problem has a solution, but the initial guess is not a number, so the problem cannot be built whatever the root finder."
  },
  {
   "property": "C85",
   "status": "proved",
   "theorems": [
    "Aerokit.Props.C85_history_independent"
   ],
   "note": ""
  },
  {
   "property": "C86",
   "status": "partial",
   "theorems": [
    "Aerokit.Props.C86_partial",
    "Aerokit.Props.C86_false",
    "Aerokit.Props.C86_thermal_false"
   ],
   "note": "C86_partial: **C86, partial.** `Wsp_TBP_ideal(P19)` is `-1/(\u03b3-1)` times the ideal work of the expansion to `P19` (default: the ambient pressure). Missing: it is not the ideal work itself, see `C86_false`. | C86_false: **C86 is false of the code**: whenever the turbine exit pressure exceeds `P19`, the work returned is negative while the ideal work is positive. | C86_thermal_false: **C86 is false for the thermal efficiency too**: it is the ideal work divided by the heat `far \u00b7 Pci`, times `-1/(\u03b3-1)`; whenever the turbine exit is above the ambient pressure and fuel is burnt, the efficiency returned is negative."
  },
  {
   "property": "C87",
   "status": "proved",
   "theorems": [
    "Aerokit.Props.C87_all",
    "Aerokit.Props.C87_none"
   ],
   "note": ""
  },
  {
   "property": "C88",
   "status": "partial",
   "theorems": [
    "Aerokit.Props.C88_partial",
    "Aerokit.Props.C88_false"
   ],
   "note": "C88_partial: **C88, partial.** The propulsive efficiency of a turbojet that accelerates the gas enough (`(1+far) (V9 - V0)\u00b2 \u2265 far V0\u00b2`) lies below 1. Missing: the general case, which is false (`C88_false`), because the thrust includes the momentum of the fuel and the kinetic energy does not include its initial one. | C88_false: **C88 is false of the code**: there is an engine (overall pressure ratio 128, 2000 K, Mach 1, nozzle losses such that the exhaust velocity equals the flight velocity) whose propulsive efficiency is 2."
  },
  {
   "property": "C89",
   "status": "partial",
   "theorems": [
    "Aerokit.Props.C89_turbo",
    "Aerokit.Props.C89_generator_false"
   ],
   "note": "C89_generator_false: **C89 is false for the gas generator**: `Wsp_TBP_ideal()` (hence `thermal_efficiency`) mixes the new ambient pressure with the turbine exit of the last update."
  },
  {
   "property": "C90",
   "status": "proved",
   "theorems": [
    "Aerokit.Props.C90_conical",
    "Aerokit.Props.C90_conical_laws"
   ],
   "note": ""
  },
  {
   "property": "C91",
   "status": "proved",
   "theorems": [
    "Aerokit.Props.C91_pressure_points",
    "Aerokit.Props.C91_pressure_devmax",
    "Aerokit.Props.C91_pressure_sonic",
    "Aerokit.Props.C91_mirror",
    "Aerokit.Props.C91_curve",
    "Aerokit.Props.C91_pressure_line",
    "Aerokit.Props.C91_angle_points"
   ],
   "note": ""
  },
  {
   "property": "C92",
   "status": "proved",
   "theorems": [
    "Aerokit.Props.C92_points",
    "Aerokit.Props.C92_monotone",
    "Aerokit.Props.C92_curve",
    "Aerokit.Props.C92_mirror"
   ],
   "note": ""
  },
  {
   "property": "C93",
   "status": "proved",
   "theorems": [
    "Aerokit.Props.C93_weak_shock",
    "Aerokit.Props.C93_weak_wave",
    "Aerokit.Props.C93_third_order_loss"
   ],
   "note": ""
  },
  {
   "property": "C94",
   "status": "proved",
   "theorems": [
    "Aerokit.Props.C94_array_branches",
    "Aerokit.Props.C94_selector",
    "Aerokit.Props.C94_entrywise",
    "Aerokit.Props.C94_sub_sup_arrays"
   ],
   "note": ""
  },
  {
   "property": "C95",
   "status": "proved",
   "theorems": [
    "Aerokit.Props.C95_residual",
    "Aerokit.Props.C95_one_sided",
    "Aerokit.Props.C95_one_sided_down",
    "Aerokit.Props.C95_beyond",
    "Aerokit.Props.C95_beyond_down",
    "Aerokit.Props.C95_one_sided_convex"
   ],
   "note": ""
  },
  {
   "property": "C96",
   "status": "partial",
   "theorems": [
    "Aerokit.Props.C96_prandtlMeyer_partial",
    "Aerokit.Props.C96_totalPressure_partial",
    "Aerokit.Props.C96_no_shock",
    "Aerokit.Props.C96_totalPressure_strong_partial",
    "Aerokit.Props.C96_prandtlMeyer_below_partial",
    "Aerokit.Props.C96_monatomic_false",
    "Aerokit.Props.C96_totalPressure_converges",
    "Aerokit.Props.C96_totalPressure_strong",
    "Aerokit.Props.C96_hypersonic_false",
    "Aerokit.Props.C96_totalPressure_returns",
    "Aerokit.Props.C96_prandtlMeyer_converges",
    "Aerokit.Props.C96_prandtlMeyer_hypersonic_false",
    "Aerokit.Props.C96_prandtlMeyer_air"
   ],
   "note": "C96_prandtlMeyer_partial: C96 (Prandtl\u2013Meyer inversion by the module's own search, `old_Mach_PrandtlMeyer`), partial: the angles that correspond to Mach numbers of at least 2. The search always returns, never overshoots: the returned Mach number is between 2 and the exact one, and when the search did not print its warning the turning angle of the result is within `10\u207b\u2075 \u00b7 (180/\u03c0) \u00b7 Mach` degrees of the request. Angles below the one of Mach 2: `C96_prandtlMeyer_below_partial`, `C96_monatomic_false`. | C96_totalPressure_partial: C96 (shock Mach number from the total pressure ratio, `Mn_Pt_ratio`), partial: default gas, shocks up to Mach 1.4985. The search always returns, from above: the result is between the exact Mach number and 1.5, and without the warning its total pressure ratio is within `6\u00b710\u207b\u2076` of the request. Missing: stronger shocks, other gases (for which `Pt_ratio` itself is wrong, C12). | C96_totalPressure_strong_partial: C96 (`Mn_Pt_ratio`), partial: default gas, shocks of Mach number 1.4985 to 1.8 (with `C96_totalPressure_partial`: up to 1.8): the search always returns, between 1.4985 and 2; without the warning its total pressure ratio is within `3\u00b710\u207b\u2075` of the request. Missing: stronger shocks, other gases (for which `Pt_ratio` itself is wrong, C12). | C96_prandtlMeyer_below_partial: C96 (Prandtl\u2013Meyer inversion by the module's own search), partial: the angles that correspond to Mach numbers between 1.7 and 2 (`\u03b3 \u2265 1.4`), for which the search starts beyond the solution. It always returns a Mach number between 1.59 and 2, and when it did not print its warning the turning angle of the result is within `2\u00b710\u207b\u2075 \u00b7 (180/\u03c0) \u00b7 Mach` degrees of the request. For air the whole range from Mach 1 to 450 is `C96_prandtlMeyer_air`. Missing: other gammas below the angle of Mach 1.7; for a monatomic gas the search does fail at Mach 1 (`C96_monatomic_false`). | C96_monatomic_false: C96, negative part: for a monatomic gas (`\u03b3 = 5/3`) the search does not invert the Prandtl\u2013Meyer function at the sonic point. The angle of Mach 1 is 0, but asked for the Mach number of the angle 0 the search computes a first iterate below Mach 1, where the function is not a real number, and fails. | C96_hypersonic_false: C96 is false for very strong shocks: from Mach 1000 on, the Mach number returned is less than half of the exact one. | C96_prandtlMeyer_hypersonic_false: C96 (`old_Mach_PrandtlMeyer`), false for hypersonic Mach numbers: beyond `10\u2078` the search exhausts its iterations, prints its warning and returns less than half of the Mach number."
  },
  {
   "property": "C97",
   "status": "proved",
   "theorems": [
    "Aerokit.Props.C97_concave",
    "Aerokit.Props.C97_monotone"
   ],
   "note": ""
  },
  {
   "property": "C98",
   "status": "partial",
   "theorems": [
    "Aerokit.Props.C98_start_above_partial",
    "Aerokit.Props.C98_default_positive",
    "Aerokit.Props.C98_explicit_start_partial",
    "Aerokit.Props.C98_default_start",
    "Aerokit.Props.C98_odd",
    "Aerokit.Props.C98_zero_false",
    "Aerokit.Props.C98_negative_false",
    "Aerokit.Props.C98_air_converges",
    "Aerokit.Props.C98_converges",
    "Aerokit.Props.C98_default_converges"
   ],
   "note": "C98_start_above_partial: C98 (start above the weak angle), partial: for an attached weak shock of angle `\u03c3` and a start `s0` between `\u03c3` and `sigma_DevMax` from which the tangent to the polar (slope `m`) meets the requested deflection at a positive angle, the search always returns; without the warning the deflection of the result is within `(2 + (\u03b3+1) M\u00b2) \u00b7 10\u207b\u2075 \u00b7 max(1, angle)` of the request. Missing: starts from which the first step leaves the range of shock angles. | C98_explicit_start_partial: C98 (explicit starting angle), partial: for an attached weak shock of angle `\u03c3` and a start `s0` at or below `\u03c3`, the search always returns an angle between `s0` and `\u03c3` whose deflection does not exceed the request; without the warning the deflection is within `(1 + (\u03b3+1) M\u00b2/2) \u00b7 10\u207b\u2075 \u00b7 max(1, angle)` of it, and the opposite deflection gives the opposite angle. Starts above the weak angle: `C98_start_above_partial`, `C98_default_positive`. | C98_zero_false: C98 is false of the code at zero deflection: the weak solution is the Mach angle, the search finds it, and the function multiplies it by `sign(0) = 0`: it returns 0 degrees, which is not a shock angle. | C98_negative_false: C98 is false of the code for negative deflections: the default start is the Mach angle PLUS the negative deflection. For the deflection `-\u03bc` the search starts at 0, in the dead zone of the secant solver, and 0 is returned with no warning."
  },
  {
   "property": "C99",
   "status": "partial",
   "theorems": [
    "Aerokit.Props.C99_stationary",
    "Aerokit.Props.C99_quotient",
    "Aerokit.Props.C99_scale",
    "Aerokit.Props.C99_mode_false"
   ],
   "note": "C99_mode_false: C99 fails for the mode: started from an exact eigenvalue, `converge_eigenpair` returns the starting mode (normalised), whatever it is and however many iterations are asked: the singular matrix is met with `exit`, which does nothing."
  },
  {
   "property": "C100",
   "status": "proved",
   "theorems": [
    "Aerokit.Props.C100_modes",
    "Aerokit.Props.C100_converse"
   ],
   "note": ""
  },
  {
   "property": "C101",
   "status": "proved",
   "theorems": [
    "Aerokit.Props.C101_characteristic_speeds",
    "Aerokit.Props.C101_sound_speed",
    "Aerokit.Props.C101_copy"
   ],
   "note": ""
  },
  {
   "property": "C102",
   "status": "proved",
   "theorems": [
    "Aerokit.Props.C102_turbojet",
    "Aerokit.Props.C102_turbofan"
   ],
   "note": ""
  },
  {
   "property": "C103",
   "status": "proved",
   "theorems": [
    "Aerokit.Props.C103_turbojet",
    "Aerokit.Props.C103_turbofan"
   ],
   "note": ""
  },
  {
   "property": "C104",
   "status": "proved",
   "theorems": [
    "Aerokit.Props.C104_brayton"
   ],
   "note": ""
  },
  {
   "property": "C105",
   "status": "partial",
   "theorems": [
    "Aerokit.Props.C105_ratios_partial",
    "Aerokit.Props.C105_optimum_false"
   ],
   "note": "C105_ratios_partial: C105 (partial: what is correct in the printed values): the ram ratio is the total to static temperature ratio of the flight, the compressor ratio that of a compression of polytropic efficiency `eta_c`, and the fan exit temperature `Tt13` is `tau_f` times the flight total temperature. | C105_optimum_false: C105 fails: the fan exit temperature printed by `calculs_tau_optimum` is never the optimal one of the ideal turbofan it is meant for, whatever the bypass ratio and the turbine entry temperature, for a compressor ratio above 9 (even if one takes for the turbine entry the temperature `cp_ Tt4 / cp` that has the same enthalpy in air). The code multiplies `tau_lambda` by `tau_r (tau_c - 1)` where the formula subtracts, and divides `tau_lambda` by the total instead of the static temperature."
  },
  {
   "property": "C106",
   "status": "partial",
   "theorems": [
    "Aerokit.Props.C106_deepcopy",
    "Aerokit.Props.C106_state_copy_false",
    "Aerokit.Props.C106_symmetric_partial",
    "Aerokit.Props.C106_symmetric_false"
   ],
   "note": "C106_state_copy_false: C106 fails for `state.copy`: whatever is written into an array of the copy is written into the original. | C106_symmetric_partial: C106 (`copysymmetric`): the velocity is a new array, opposite to the original one ... | C106_symmetric_false: C106 fails for `copysymmetric`: ... but density and pressure are the arrays of the original, and are changed together."
  },
  {
   "property": "C107",
   "status": "partial",
   "theorems": [
    "Aerokit.Props.C107_private_partial",
    "Aerokit.Props.C107_public_false"
   ],
   "note": "C107_private_partial: C107 (partial, for the private method): the state returned by `_rankinehugoniot_from_ushock` for a supersonic relative velocity is the state behind a genuine shock (compression) moving at `ushock`, and the method applied to it gives back the original state. | C107_public_false: C107 fails for the public method: whatever supersonic shock velocity is given, the downstream state exists, but `shock_downstream`, which has no body, does not return it."
  },
  {
   "property": "C108",
   "status": "partial",
   "theorems": [
    "Aerokit.Props.C108_sigma_partial",
    "Aerokit.Props.C108_sigma_exact",
    "Aerokit.Props.C108_mach_partial",
    "Aerokit.Props.C108_mach_exact"
   ],
   "note": "C108_sigma_partial: C108 (shock angle), partial: a shock angle returned by `conical_sigma_Mach_walldeflection` is the last of a sequence of at most 19 secant iterates of the wall deflection of the conical flow at the upstream Mach number, started at the Mach angle plus the deflection; when fewer than 19 were used the last two are within `10\u207b\u2075 max(1, \u03c3)`. Missing: that the wall deflection there is the requested one. | C108_mach_partial: C108 (Mach number), partial: a Mach number returned by `conical_Mach_walldeflection_sigma` is the last of at most 19 secant iterates of the wall deflection as a function of the Mach number, the shock angle being the given one, larger than the deflection; they start at `1/sin(\u03c3 - \u03b4/2)`. Missing: that the wall deflection there is the requested one."
  },
  {
   "property": "C109",
   "status": "proved",
   "theorems": [
    "Aerokit.Props.C109_weak_solution",
    "Aerokit.Props.C109_total",
    "Aerokit.Props.C109_entropy"
   ],
   "note": ""
  },
  {
   "property": "C110",
   "status": "proved",
   "theorems": [
    "Aerokit.Props.C110_stability",
    "Aerokit.Props.C110_order4",
    "Aerokit.Props.C110_linear"
   ],
   "note": ""
  },
  {
   "property": "C111",
   "status": "proved",
   "theorems": [
    "Aerokit.Props.C111_power",
    "Aerokit.Props.C111_nilpotent",
    "Aerokit.Props.C111_kernel",
    "Aerokit.Props.C111_symmetry",
    "Aerokit.Props.C111_first_order",
    "Aerokit.Props.C111_dirichlet"
   ],
   "note": ""
  },
  {
   "property": "C112",
   "status": "proved",
   "theorems": [
    "Aerokit.Props.C112_extrapol",
    "Aerokit.Props.C112_first_derivative",
    "Aerokit.Props.C112_derivative",
    "Aerokit.Props.C112_convergence"
   ],
   "note": ""
  },
  {
   "property": "C113",
   "status": "proved",
   "theorems": [
    "Aerokit.Props.C113_periodic",
    "Aerokit.Props.C113_walls",
    "Aerokit.Props.C113_dispersion",
    "Aerokit.Props.C113_conjugate",
    "Aerokit.Props.C113_mirror",
    "Aerokit.Props.C113_pressure",
    "Aerokit.Props.C113_acoustic"
   ],
   "note": ""
  },
  {
   "property": "C114",
   "status": "proved",
   "theorems": [
    "Aerokit.Props.C114_equation",
    "Aerokit.Props.C114_conjugate",
    "Aerokit.Props.C114_galilean",
    "Aerokit.Props.C114_mirror",
    "Aerokit.Props.C114_parity",
    "Aerokit.Props.C114_similarity"
   ],
   "note": ""
  },
  {
   "property": "C115",
   "status": "proved",
   "theorems": [
    "Aerokit.Props.C115_units",
    "Aerokit.Props.C115_units_qsol"
   ],
   "note": ""
  },
  {
   "property": "C116",
   "status": "proved",
   "theorems": [
    "Aerokit.Props.C116_velocity",
    "Aerokit.Props.C116_pressure",
    "Aerokit.Props.C116_density",
    "Aerokit.Props.C116_uniform"
   ],
   "note": ""
  },
  {
   "property": "C117",
   "status": "proved",
   "theorems": [
    "Aerokit.Props.C117_increasing",
    "Aerokit.Props.C117_unique",
    "Aerokit.Props.C117_exists",
    "Aerokit.Props.C117_outflow_root",
    "Aerokit.Props.C117_wave"
   ],
   "note": ""
  },
  {
   "property": "C118",
   "status": "partial",
   "theorems": [
    "Aerokit.Props.C118_position",
    "Aerokit.Props.C118_moves",
    "Aerokit.Props.C118_index_partial",
    "Aerokit.Props.C118_accuracy"
   ],
   "note": "C118_index_partial: C118 (partial: `Msh` is what the inversion `Mn_Pi_ratio` returned for the loss: see C96 for its accuracy; default gamma): the profiles computed by `set_NPR` in the shock regime switch at an index `ish`, at which the choked isentropic Mach number (`C0`, the one of every section, supersonic after the throat) is the closest to `Msh` (the first such index). In a diffuser whose sections do not decrease, the points before it have Mach numbers up to `Msh`, the points after it have Mach numbers from `Msh` on (unless they have the section of `ish`)."
  },
  {
   "property": "C119",
   "status": "proved",
   "theorems": [
    "Aerokit.Props.C119_fanno",
    "Aerokit.Props.C119_rayleigh"
   ],
   "note": ""
  },
  {
   "property": "C120",
   "status": "proved",
   "theorems": [
    "Aerokit.Props.C120_static",
    "Aerokit.Props.C120_total"
   ],
   "note": ""
  },
  {
   "property": "C121",
   "status": "proved",
   "theorems": [
    "Aerokit.Props.C121_choked",
    "Aerokit.Props.C121_unchoked",
    "Aerokit.Props.C121_choking"
   ],
   "note": ""
  },
  {
   "property": "C122",
   "status": "proved",
   "theorems": [
    "Aerokit.Props.C122_components"
   ],
   "note": ""
  },
  {
   "property": "C123",
   "status": "proved",
   "theorems": [
    "Aerokit.Props.C123_turbojet",
    "Aerokit.Props.C123_turbofan"
   ],
   "note": ""
  },
  {
   "property": "C124",
   "status": "proved",
   "theorems": [
    "Aerokit.Props.C124_scripts",
    "Aerokit.Props.C124_objects"
   ],
   "note": ""
  },
  {
   "property": "C125",
   "status": "partial",
   "theorems": [
    "Aerokit.Props.C125_balance_partial",
    "Aerokit.Props.C125_consumption_false"
   ],
   "note": "C125_balance_partial: C125 (balances, partial: the fuel momentum is missing in the thrust and the consumption is ten times too large): for both classes. | C125_consumption_false: C125: the consumption `show_perfo` prints with the unit g/kN/s is never the consumption in that unit (unless no fuel is burnt); the thrust is never the thrust of the momentum balance (unless no fuel is burnt or the core jet is at rest)."
  },
  {
   "property": "C126",
   "status": "proved",
   "theorems": [
    "Aerokit.Props.C126_figures",
    "Aerokit.Props.C126_values"
   ],
   "note": ""
  },
  {
   "property": "C127",
   "status": "proved",
   "theorems": [
    "Aerokit.Props.C127_limits",
    "Aerokit.Props.C127_total_pressure",
    "Aerokit.Props.C127_dev_Max",
    "Aerokit.Props.C127_detached"
   ],
   "note": ""
  },
  {
   "property": "C128",
   "status": "proved",
   "theorems": [
    "Aerokit.Props.C128_exact",
    "Aerokit.Props.C128_isentropic",
    "Aerokit.Props.C128_shock",
    "Aerokit.Props.C128_lines"
   ],
   "note": ""
  },
  {
   "property": "C129",
   "status": "partial",
   "theorems": [
    "Aerokit.Props.C129_temperature_partial",
    "Aerokit.Props.C129_pressure_partial",
    "Aerokit.Props.C129_shock",
    "Aerokit.Props.C129_low_Mach_false"
   ],
   "note": "C129_temperature_partial: **C129** (temperature ratio; partial: Mach numbers that are not too small for the precision, `M\u00b2 \u226b u`, see `C129_low_Mach_false`): `Mach_TtTs (TtTs_Mach M)` is `M` up to `8 + 20/((\u03b3-1) M\u00b2)` roundings. | C129_pressure_partial: **C129** (pressure ratio; partial for the same reason): `Mach_PtPs (PtPs_Mach M)`. | C129_low_Mach_false: **C129 is false for small Mach numbers**: in binary floating point with `p` digits (53 for float64), when `(\u03b3-1) M\u00b2 \u2264 2\u207b\u1d56` (for air and float64: `M \u2264 1.6\u00b710\u207b\u2078`) the temperature ratio of `M` is 1 and the Mach number recovered from it is 0: the relative error is total."
  },
  {
   "property": "C130",
   "status": "partial",
   "theorems": [
    "Aerokit.Props.C130_exact",
    "Aerokit.Props.C130_terminates_partial",
    "Aerokit.Props.C130_exact_end_partial",
    "Aerokit.Props.C130_small_step_false",
    "Aerokit.Props.C130_overshoot_false"
   ],
   "note": "C130_terminates_partial: **C130 (termination).** In any arithmetic rounding to nearest with `p \u2265 2` binary digits (any rule for ties, any rounding in the right-hand side), `RK4` from `x` to `xStop > x` with a step `h > u max(|x|,|xStop|)`, `u = 2\u207b\u1d56`, ends: with `n (h - u max(|x|,|xStop|)) \u2265 xStop - x` it makes at most `n + 3` steps, the abscissas are strictly increasing, all below `xStop` but the last, which exceeds `xStop` by at most `2u (xStop - x)`. | C130_exact_end_partial: **C130 (exact end).** From `x \u2265 0` and with a step not larger than `xStop / 2`, the last abscissa is exactly `xStop`. | C130_small_step_false: **Termination is false for smaller steps**: in every arithmetic rounding to nearest, `RK4` from 1 to 2 with the step `2\u207b\u1d56\u207b\u00b9 > 0` runs forever (`x + h` rounds to `x`), whatever the right-hand side. | C130_overshoot_false: **An exact end is false in general**: in every arithmetic rounding to nearest, `RK4` from `-1` to `xStop = 3\u00b72\u207b\u1d56\u207b\u00b9` with the step 2 makes one step and ends at `2\u00b72\u207b\u1d56`, beyond `xStop` by a third of it."
  },
  {
   "property": "C131",
   "status": "proved",
   "theorems": [
    "Aerokit.Props.C131_accepted_steps",
    "Aerokit.Props.C131_returns",
    "Aerokit.Props.C131_local_order",
    "Aerokit.Props.C131_order5",
    "Aerokit.Props.C131_estimate",
    "Aerokit.Props.C131_step_floor"
   ],
   "note": ""
  },
  {
   "property": "C132",
   "status": "partial",
   "theorems": [
    "Aerokit.Props.C132_linear_partial",
    "Aerokit.Props.C132_tolerance_false"
   ],
   "note": "C132_linear_partial: C132, the part that holds: on `y' = \u03bb y` (any real `\u03bb`), as long as no step taken is longer than `1/(2|\u03bb|)`, the error of every step is at most its estimate, hence at most `tol`, and the error of the `m`-th sample is at most `m tol`, amplified by `exp (\u03bb (t - x))` when `\u03bb > 0`. Missing: other equations, for which the claim is false in general (`C132_tolerance_false`). | C132_tolerance_false: C132 is false in general: for every tolerance and every bound `B` there is a polynomial right-hand side, with a known exact solution, for which the run from 0 to 1 with initial step 1 accepts its steps with an error estimate of exactly 0, reaches `xStop`, and is wrong by more than `B`."
  },
  {
   "property": "C133",
   "status": "proved",
   "theorems": [
    "Aerokit.Props.C133_pmeyer",
    "Aerokit.Props.C133_derivative",
    "Aerokit.Props.C133_expansion",
    "Aerokit.Props.C133_mach_angle"
   ],
   "note": ""
  },
  {
   "property": "C134",
   "status": "proved",
   "theorems": [
    "Aerokit.Props.C134_sound",
    "Aerokit.Props.C134_total",
    "Aerokit.Props.C134_diverges",
    "Aerokit.Props.C134_negative",
    "Aerokit.Props.C134_unique",
    "Aerokit.Props.C134_accuracy"
   ],
   "note": ""
  },
  {
   "property": "C135",
   "status": "partial",
   "theorems": [
    "Aerokit.Props.C135_net",
    "Aerokit.Props.C135_angles",
    "Aerokit.Props.C135_exit",
    "Aerokit.Props.C135_axis_false"
   ],
   "note": "C135_axis_false: **C135** (false as one would state it) the points of the axis do not all have a flow along the axis: the first characteristic is not reflected."
  },
  {
   "property": "C136",
   "status": "partial",
   "theorems": [
    "Aerokit.Props.C136_returns_partial",
    "Aerokit.Props.C136_fails",
    "Aerokit.Props.C136_profile_partial"
   ],
   "note": "C136_returns_partial: **C136** For a requested Mach number in `(1, 3]`, any throat area and any number of waves, the construction returns (`fuel` bounds the Newton searches). | C136_profile_partial: **C136** For a requested Mach number in `(1, 3]`, or in `(1, 10]` with at least twelve waves, and waves not weaker than the tolerance of the searches, the returned profile starts at the corner of the throat, goes downstream, expands, and is concave."
  },
  {
   "property": "C137",
   "status": "partial",
   "theorems": [
    "Aerokit.Props.C137_same_array",
    "Aerokit.Props.C137_isolated",
    "Aerokit.Props.C137_content",
    "Aerokit.Props.C137_matder_fresh",
    "Aerokit.Props.C137_written_false"
   ],
   "note": "C137_written_false: **C137** the nodes are not protected: what a caller writes into the array it got from `x` (or `xi`) is what the object returns afterwards."
  },
  {
   "property": "C138",
   "status": "proved",
   "theorems": [
    "Aerokit.Props.C138_conventional",
    "Aerokit.Props.C138_conventional_ends",
    "Aerokit.Props.C138_conventional_trend",
    "Aerokit.Props.C138_supersonic",
    "Aerokit.Props.C138_unstarted",
    "Aerokit.Props.C138_restart",
    "Aerokit.Props.C138_hysteresis",
    "Aerokit.Props.C138_runs",
    "Aerokit.Props.C138_script_values"
   ],
   "note": ""
  },
  {
   "property": "C139",
   "status": "partial",
   "theorems": [
    "Aerokit.Props.C139_sub_partial",
    "Aerokit.Props.C139_sup_partial",
    "Aerokit.Props.C139_default_guess_partial",
    "Aerokit.Props.C139_throat",
    "Aerokit.Props.C139_far_guess_false",
    "Aerokit.Props.C139_contract_false"
   ],
   "note": "C139_sub_partial: **C139 (subsonic, proved domain).** With the default gas and the secant method of scipy as it is (50 iterations, step tolerance 1.48e-8), `MachSub_Sigma` returns, for every area ratio from 1.000002 to 2000, a subsonic Mach number within 1.8e-8 of one whose area ratio is exactly the requested one. | C139_sup_partial: **C139 (supersonic, proved domain).** Likewise for `MachSup_Sigma`, for every area ratio from 1.000001 to 50. | C139_default_guess_partial: **C139 (default guess, proved domain).** `Mach_Sigma(sigma)` with its default guess 2.0 returns the supersonic Mach number for area ratios from 1.08 to 2.4. | C139_far_guess_false: **C139 (defect).** `Mach_Sigma(sigma)` with its default guess 2.0 does not solve large area ratios, and does not say so: for every `sigma \u2265 10\u2074` it returns a value within 10\u207b\u2078 of the guess, whose area ratio is about 1.69. | C139_contract_false: the contract used elsewhere for the solver is therefore an idealisation: the algorithm of scipy does not meet it everywhere"
  },
  {
   "property": "C140",
   "status": "partial",
   "theorems": [
    "Aerokit.Props.C140_two_expansions",
    "Aerokit.Props.C140_moderate_partial",
    "Aerokit.Props.C140_collision_false"
   ],
   "note": "C140_moderate_partial: **C140 (moderate shocks).** For air, when the pressure between the waves is at most 14 times each initial pressure (so each shock is weaker than a pressure ratio of 14) and is not below `0.02` in the units used, the constructor succeeds with scipy's secant loop from the code's own estimate, and `pstar` is the root within `1.48e-8 + 1.45e-10 p`. Other gammas, stronger shocks (where it can fail, see `C140_collision_false`) and lower pressures are missing. | C140_collision_false: **C140 (defect).** Two equal streams of air that collide fast enough are not solved: for every density, pressure and mean velocity, as soon as each stream moves at seven times its speed of sound or more towards the other, the first chord leads to a negative pressure and the constructor fails, although the problem has a solution."
  },
  {
   "property": "C141",
   "status": "partial",
   "theorems": [
    "Aerokit.Props.C141_inverse_partial",
    "Aerokit.Props.C141_moderate_partial",
    "Aerokit.Props.C141_high_partial",
    "Aerokit.Props.C141_beyond",
    "Aerokit.Props.C141_negative",
    "Aerokit.Props.C141_deflection_partial"
   ],
   "note": "C141_inverse_partial: C141 (convergence, default gas), partial: for the turning angle of any Mach number from 1 to 10\u2078, `Mach_PrandtlMeyer` with scipy's own secant iteration (start 2, 50 iterations, step tolerance 1.48e-8) returns a Mach number of at least 1 whose Prandtl\u2013Meyer angle is within 10\u207b\u2076 degree of the request. Missing: the angles between that of Mach 10\u2078 and the largest turning angle (less than `10\u207b\u2075` degree apart), other gases below Mach 2.0003. | C141_moderate_partial: C141 (accuracy of the Mach number, default gas, Mach 1.2 to 2.0003): within 10\u207b\u2078 | C141_high_partial: C141 (all gases with `gamma \u2265 1.11`, above the starting points), partial: the search approaches from below and its relative error is at most 7.4e-9, for Mach numbers up to 10\u2078. | C141_deflection_partial: C141 (pressure ratio of a deflection, default gas), partial: whenever the turned flow has a Mach number `N` from 1 to 10\u2078, the function returns the ratio of the total-to-static ratios of the flow and of a Mach number whose Prandtl\u2013Meyer angle is that of `N` within 10\u207b\u2076 degree."
  },
  {
   "property": "C142",
   "status": "partial",
   "theorems": [
    "Aerokit.Props.C142_base",
    "Aerokit.Props.C142_shock",
    "Aerokit.Props.C142_given",
    "Aerokit.Props.C142_none",
    "Aerokit.Props.C142_linear",
    "Aerokit.Props.C142_default_false"
   ],
   "note": "C142_default_false: C142 fails for the default value of `dM0dx`: without it the object is built, but its matrices can never be computed (`compute_operators` raises), for every number of points, length and Mach number."
  },
  {
   "property": "C143",
   "status": "partial",
   "theorems": [
    "Aerokit.Props.C143_one_entry",
    "Aerokit.Props.C143_search_PM",
    "Aerokit.Props.C143_search_empty_false",
    "Aerokit.Props.C143_search_sigma",
    "Aerokit.Props.C143_search_conical",
    "Aerokit.Props.C143_branch_floats",
    "Aerokit.Props.C143_branch_false",
    "Aerokit.Props.C143_sigma_Mach_false",
    "Aerokit.Props.C143_conical_false",
    "Aerokit.Props.C143_PM_array_partial",
    "Aerokit.Props.C143_degree",
    "Aerokit.Props.C143_isentropic",
    "Aerokit.Props.C143_massflow",
    "Aerokit.Props.C143_fanno",
    "Aerokit.Props.C143_rayleigh",
    "Aerokit.Props.C143_supersonic",
    "Aerokit.Props.C143_shock"
   ],
   "note": "C143_search_empty_false: C143 (empty arrays): unlike the closed forms, which give back an empty array, the secant searches raise `ValueError` on an array without entries. | C143_branch_false: C143 (wave angle formulas on arrays): false. `weaksigma_Mach_deflection`, `strongsigma_Mach_deflection` and `Mn_Pt_ratio` test their arguments with `if`: an array of two or more entries in any argument of the first two, or in the pressure ratio of the last, raises `ValueError` (use `np.vectorize`, or the elementwise `deflection_Mach_sigma`). | C143_sigma_Mach_false: C143 (shock angle search, array of Mach numbers): false. `sigma_Mach_deflection` called with an array of two or more Mach numbers (between 1 and 5000) raises `ValueError`, whatever the deflections (floats or array, nonnegative): the elementwise `secant_solve` calls a function that has captured the whole array. | C143_conical_false: C143 (conical shocks on arrays): false. An array of two or more entries as shock angle, or as Mach number with a shock angle of at least a millionth of a degree, makes `conical_deflection_Mach_sigma` raise `ValueError`; so do an array of Mach numbers for `conical_sigma_Mach_walldeflection` and any array for `conical_Mach_walldeflection_sigma`. | C143_PM_array_partial: C143 with C96: an array of turning angles, each that of a Mach number of at least 2, is inverted entry by entry; no entry overshoots its Mach number."
  },
  {
   "property": "C144",
   "status": "partial",
   "theorems": [
    "Aerokit.Props.C144_guesses_partial",
    "Aerokit.Props.C144_sub_partial",
    "Aerokit.Props.C144_sup_partial",
    "Aerokit.Props.C144_float_guess_false",
    "Aerokit.Props.C144_prandtl_meyer_partial",
    "Aerokit.Props.C144_prandtl_meyer_high_partial",
    "Aerokit.Props.C144_unattainable_false",
    "Aerokit.Props.C144_all_unattainable"
   ],
   "note": "C144_guesses_partial: **C144 (arrays of area ratios, proved domain).** With the default gas and scipy's vectorised secant search as it is, `Mach_Sigma(sigma, Mach)` accepts an array of guesses with at least two entries (and a float or an array of area ratios). It never raises, and every entry is solved, whatever the other entries are: if the guess is at most 1 the entry is within 3.2e-8 of a subsonic Mach number whose area ratio is exactly the requested one, otherwise of a supersonic one. Domain: every entry has an area ratio equal to 1, or in [1.000002, 2000] on the subsonic side and [1.000001, 50] on the supersonic side. | C144_sub_partial: **C144 (`MachSub_Sigma` on arrays, proved domain).** For every array of area ratios, each equal to 1 or in [1.000002, 2000], every entry of the result is within 3.2e-8 of the subsonic Mach number of that area ratio. | C144_sup_partial: **C144 (`MachSup_Sigma` on arrays, proved domain).** For every array of area ratios, each equal to 1 or in [1.000001, 50], every entry of the result is within 3.2e-8 of the supersonic Mach number of that area ratio. | C144_float_guess_false: **C144 (defect).** An array of area ratios with a float guess is refused: `Mach_Sigma(sigma)` with its default guess 2.0, or any other float, raises `ValueError` for every array of at least two area ratios, whatever the gas. | C144_prandtl_meyer_partial: **C144 (`Mach_PrandtlMeyer` on arrays, default gas, proved domain).** For every array of turning angles, each of them the Prandtl\u2013Meyer angle of a Mach number from 1 to 10\u2078, no exception is raised, and every entry is a Mach number of at least 1 whose angle is within 10\u207b\u2076 degree of the request; above Mach 1.2 the relative error of the Mach number is at most 10\u207b\u2078. | C144_prandtl_meyer_high_partial: **C144 (`Mach_PrandtlMeyer` on arrays, other gases).** For `gamma \u2265 1.11` and Mach numbers from 2.0003 to 10\u2078 every entry is approached from below, with a relative error of at most 7.4e-9. | C144_unattainable_false: **C144 (defect: unattainable angles in an array are answered silently).** Default gas. The largest turning angle is `90 (\u221a6 - 1)` (130.45\u00b0), and the float call raises \"failed to converge\" from there on (C141). But in an array with at least one attainable angle (of a Mach number from 1 to 10\u2078) and any number of unattainable ones the search does not raise: it returns a Mach number for each unattainable angle too, whose own angle is smaller than the requested one. (The attainable entries are still right, within 2e-6 degree.)"
  },
  {
   "property": "C145",
   "status": "partial",
   "theorems": [
    "Aerokit.Props.C145_periodic_partial",
    "Aerokit.Props.C145_walls_partial",
    "Aerokit.Props.C145_walls_parity_partial",
    "Aerokit.Props.C145_tube_partial"
   ],
   "note": "C145_periodic_partial: C145: over a uniform flow with periodic conditions, every eigenvalue of the computed matrices is real: no mode grows or decays, whatever the flow, the interval and the Mach number. Proved for every even number of points and for every odd number up to 101 (missing: larger odd numbers). | C145_walls_partial: C145: in a gas at rest between two walls every eigenvalue is real, up to 101 points (missing: larger numbers). | C145_walls_parity_partial: C145: in a gas at rest between two walls, for any number of points, the eigenvalues of the modes whose pressure is symmetric (even number of points) or antisymmetric (odd number of points) are real. | C145_tube_partial: C145, the example `euler1d.py`: for every Mach number and every even number of points, or odd number up to 101 (the script uses 101), the object is built, its matrices are computed, their modes are the periodic waves at the speeds `100 (Mach - 1)`, `100 Mach`, `100 (Mach + 1)` on `[0, 1]`, and no eigenvalue has an imaginary part."
  },
  {
   "property": "C146",
   "status": "partial",
   "theorems": [
    "Aerokit.Props.C146_round_trip_partial",
    "Aerokit.Props.C146_validation",
    "Aerokit.Props.C146_low",
    "Aerokit.Props.C146_high",
    "Aerokit.Props.C146_throat_coefficient",
    "Aerokit.Props.C146_throat_false",
    "Aerokit.Props.C146_panel_false"
   ],
   "note": "C146_round_trip_partial: **C146 (round trip).** `Mach_Sigma(Sigma_Mach(Mach), Mach)` on an array of Mach numbers, each 1, or from 3e-4 to 0.9984, or from 1.0012 to 5.8, returns every Mach number within 3.2e-8. | C146_throat_false: **C146 (defect).** The curve `sig2`, drawn as the expansion at Mach 1, is the expansion of second order for no other gas than the one with `\u03b3\u00b2 + 6\u03b3 = 11` (`\u03b3 \u2248 1.472`); in particular not for the gas of the script. | C146_panel_false: The curves of the right panel of the script, in the neighbourhood of Mach 1: the second one is above the area ratio."
  },
  {
   "property": "C147",
   "status": "partial",
   "theorems": [
    "Aerokit.Props.C147_bypass_partial",
    "Aerokit.Props.C147_losses_false"
   ],
   "note": "C147_bypass_partial: **C147 (bypass ratio).** Giving the same fan power to more air, everything else being the same, leaves the core unchanged and makes the fan flow cooler and slower; without losses in inlet and nozzle the thrust does not decrease and the specific consumption does not increase. | C147_losses_false: **C147 (defect of the expectation).** With a total pressure loss in inlet or nozzle, in flight, more bypass air ends up costing thrust: beyond some bypass ratio the thrust is smaller than any given value."
  },
  {
   "property": "C148",
   "status": "proved",
   "theorems": [
    "Aerokit.Props.C148_concave",
    "Aerokit.Props.C148_optimal_split",
    "Aerokit.Props.C148_optimum_exists"
   ],
   "note": ""
  },
  {
   "property": "C149",
   "status": "partial",
   "theorems": [
    "Aerokit.Props.C149_scripts_partial",
    "Aerokit.Props.C149_scripts_false"
   ],
   "note": "C149_scripts_partial: C149 (the part that holds): with the third-party packages installed, in a new process or in any session, the imports of all the shipped scripts but the four written for a package `aero` succeed (`remove_output.py` needs `nbformat` too). | C149_scripts_false: C149 is false: where no package `aero` is installed, `rayleigh-diag.py`, `rayleigh-heating.py`, `shockwave-polar.py` and `shockwave-polar-p.py` stop at their imports, whatever has been imported before."
  },
  {
   "property": "C150",
   "status": "partial",
   "theorems": [
    "Aerokit.Props.C150_heating_partial",
    "Aerokit.Props.C150_polar_false",
    "Aerokit.Props.C150_other_gas_false"
   ],
   "note": "C150_heating_partial: C150 (the heating chart, `gam = 1.4` as in the script): for every initial Mach number and every number of points, all the points are finite; the abscissas are equidistant from 1 to the maximal heating ratio; the flow at abscissa `x` has `x` times the stagnation temperature of the initial flow (the same critical state); the curve starts at the initial Mach number, ends at Mach 1, and goes strictly towards 1. | C150_polar_false: C150 is false for the polars: with Python 3, `npoints/2` and `npoints/3` are floats, so that both scripts stop with an `IndexError` at the label of their first polar, for every gas, every number of points and every list of Mach numbers. | C150_other_gas_false: the heating chart would be wrong for another gas: `maxTiratio_Mach` ignores its argument `gamma`, and the curve drawn by the same loop for any `gam \u2260 1.4` and any initial Mach number below 1 does not start at the initial Mach number."
  },
  {
   "property": "C151",
   "status": "proved",
   "theorems": [
    "Aerokit.Props.C151_initial",
    "Aerokit.Props.C151_final",
    "Aerokit.Props.C151_same_pressure",
    "Aerokit.Props.C151_runs"
   ],
   "note": ""
  },
  {
   "property": "C152",
   "status": "partial",
   "theorems": [
    "Aerokit.Props.C152_crash_safe_partial",
    "Aerokit.Props.C152_complete_partial",
    "Aerokit.Props.C152_twice_false",
    "Aerokit.Props.C152_unreadable_false",
    "Aerokit.Props.C152_unwritable_false"
   ],
   "note": "C152_crash_safe_partial: C152 (the part that holds): the names are different and none is the backup name of another one. Wherever the run is interrupted (crash, power cut, exception), the original text of every file of the list is in the file or in its backup file, complete; and no file is changed but these. | C152_complete_partial: C152 (completion): under the same hypotheses, a run without exception has replaced every file of the list by the text that the notebook format writes for the notebook it reads in it, without its outputs, and kept its original text in the backup file. | C152_twice_false: C152 is false for a file cleaned twice (named twice, or in two runs): when the file held the only copy of its text, and the cleaned text and the text cleaned again differ from it, no file holds the original any more. | C152_unreadable_false: C152 is false for a notebook that cannot be read: the run stops, and the file does not exist any more under its name. | C152_unwritable_false: C152 is false for a notebook that cannot be written: the run stops, and the file is empty under its name; the original is in the backup file only."
  },
  {
   "property": "C153",
   "status": "proved",
   "theorems": [
    "Aerokit.Props.C153_remove_outputs"
   ],
   "note": ""
  },
  {
   "property": "C154",
   "status": "proved",
   "theorems": [
    "Aerokit.Props.C154_energy",
    "Aerokit.Props.C154_thermal"
   ],
   "note": ""
  },
  {
   "property": "C155",
   "status": "partial",
   "theorems": [
    "Aerokit.Props.C155_flow",
    "Aerokit.Props.C155_euler",
    "Aerokit.Props.C155_characteristic",
    "Aerokit.Props.C155_case_partial",
    "Aerokit.Props.C155_case_false",
    "Aerokit.Props.C155_fresh_false",
    "Aerokit.Props.C155_pressure_false"
   ],
   "note": "C155_case_partial: **C155 (the case).** With a root finder that finds the roots on the supersonic side, `init_case` returns when the gas can be turned by TWICE the angle of the wall. | C155_case_false: **C155 (the case) is false of the code beyond that**: a wall the flow can follow (`om0 - ang` below the maximum), but not twice: `init_case` fails, whatever the root finder, because the pressure ratio is computed from the flow AFTER the corner. | C155_fresh_false: **C155 is false of the notebook as it is**: in a new kernel nothing has called `init_case` when the second cell calls `plot_geom()` (nor when `plot_expansion()` is called), and the cell raises `NameError`. | C155_pressure_false: **C155 (pressure ratio) is false of the code.** `p1p0` is not the ratio of the pressure after the corner to the pressure before it: for every initial Mach number from `\u221a2` on and every non-zero angle of the wall it is strictly smaller."
  },
  {
   "property": "C156",
   "status": "proved",
   "theorems": [
    "Aerokit.Props.C156_point",
    "Aerokit.Props.C156_bypass",
    "Aerokit.Props.C156_figure"
   ],
   "note": ""
  },
  {
   "property": "C157",
   "status": "partial",
   "theorems": [
    "Aerokit.Props.C157_components_partial"
   ],
   "note": "C157_components_partial: **C157 (partial).** With better components (compressor, shafts, fan) or a hotter turbine inlet, everything else being the same, the turbofan still runs, burns not less fuel, and neither jet velocity nor the thrust decreases; a hotter turbine inlet strictly increases the fuel and, if the core has a jet, the thrust. With a lossless low pressure turbine this is also true of a better inlet, a better high pressure turbine and a better nozzle. Missing: these three with a lossy low pressure turbine, or with one of higher polytropic efficiency than the high pressure turbine; a better low pressure turbine."
  },
  {
   "property": "C158",
   "status": "partial",
   "theorems": [
    "Aerokit.Props.C158_fixe_partial",
    "Aerokit.Props.C158_calcule_partial",
    "Aerokit.Props.C158_false"
   ],
   "note": "C158_fixe_partial: **C158, partial.** For an engine with a given fan pressure ratio that the package can evaluate, with a burnt gas whose `gamma` is between 1 and `r`, the package (cell 20) shows its performances; if the classes of the notebook (cell 18) show performances, their thrust is larger than the one of the package when the exhaust Mach number is below `\u221a2` (and not 0), smaller when it is above, and all the figures are the same in between. (Missing part: the figures of the two cells are the same for every engine; this is false, see `C158_false`.) | C158_calcule_partial: **C158, partial,** for an engine with a computed fan. | C158_false: **C158 is false of the notebook**: for this engine (bypass ratio 5, `Tt4 = 1600`, the gases of the notebook) cell 20 shows the performances `p` of the package, and cell 18 does not show them: its thrust, if shown, is smaller."
  },
  {
   "property": "C159",
   "status": "partial",
   "theorems": [
    "Aerokit.Props.C159_shock_partial",
    "Aerokit.Props.C159_last_partial",
    "Aerokit.Props.C159_fan_partial",
    "Aerokit.Props.C159_notebook"
   ],
   "note": "C159_shock_partial: C159, partial (cells 6 and 11): a flow at a Mach number from 1.01 to 10 is turned by at least a quarter of a degree, by an attached weak shock of angle `\u03c3` whose pressure rise is at most 95 % of the one at the largest deflection. The cell ends; the shock it reports is an exact oblique shock, not stronger than the one of largest deflection, whose deflection `\u03b8` is the wall angle within `(2 + 2.4 M\u00b2)\u00b710\u207b\u2075\u00b7max(1, angle)` degree; the pressure ratio is that of this shock (steeper than the wall), and the Mach number is its downstream Mach number `N` within the relative error `6.5\u00b710\u207b\u2075\u00b7(2 + 2.4 M\u00b2)` (the cell uses the wall angle in place of the deflection of the reported shock). Missing: shocks nearer to detachment, Mach numbers above 10. | C159_last_partial: C159, partial (cell 11): the last shock, which turns the flow back by the angle `d` of the leeward face (`wang2 = -d`), has the same properties as the first one, and the final pressure is that of the leeward face times its pressure ratio. | C159_fan_partial: C159, partial (cell 9): behind a supersonic windward flow, when the turn at the ridge is the difference of the Prandtl\u2013Meyer angles of the Mach number `M1` and of some Mach number up to `10\u2078`, the cell ends: `M2` is at least 1 and turns the flow by the change of wall angle within 10\u207b\u2076 degree, and the pressure on the leeward face is that of an isentropic flow from `M1` to `M2`, lower than on the windward face as soon as the turn exceeds `10\u207b\u2075` degree. Missing: turns within `10\u207b\u2075` degree of the vacuum limit, other gases."
  },
  {
   "property": "C160",
   "status": "partial",
   "theorems": [
    "Aerokit.Props.C160_reflection_partial",
    "Aerokit.Props.C160_notebook",
    "Aerokit.Props.C160_zero_false"
   ],
   "note": "C160_reflection_partial: C160, partial: a flow at a Mach number from 1.01 to 10 meets a ramp of at least a quarter of a degree with an attached weak shock at most 95 % as strong as the one of largest deflection, and so does the flow that cell 6 computes behind it. The notebook ends; each shock is an exact oblique shock, the second upstream of the first one's computed Mach number; each turns the flow by the ramp angle within its tolerance, so that the flow behind the reflection is parallel to the walls within the sum of the two; the pressure ratios multiply; the drawn shocks have the computed inclinations (the reflected one, relative to the flow along the ramp). Missing: shocks nearer to detachment, Mach numbers above 10. | C160_zero_false: C160 fails on a flat wall (`wdev = 0`, the lowest position of the slider of the widget version): at every supersonic Mach number of the other slider (up to 10) `sigma_Mach_deflection` returns the angle 0 instead of the Mach angle, the normal Mach number is 0, and no number is obtained behind that \"shock\"."
  },
  {
   "property": "C161",
   "status": "partial",
   "theorems": [
    "Aerokit.Props.C161_expansion_partial",
    "Aerokit.Props.C161_intersect",
    "Aerokit.Props.C161_focus_partial",
    "Aerokit.Props.C161_angle",
    "Aerokit.Props.C161_runs",
    "Aerokit.Props.C161_expansion",
    "Aerokit.Props.C161_expansion_figure",
    "Aerokit.Props.C161_compression",
    "Aerokit.Props.C161_mach_partial",
    "Aerokit.Props.C161_undisturbed",
    "Aerokit.Props.C161_focused_false"
   ],
   "note": "C161_expansion_partial: **C161 (an expansion wall, partial).** Along a wall `f` that nowhere turns up (concave), at two wall points more than `1e-4` apart whose directions `a\u2081 \u2264 0` and `a\u2082` are equal or differ by more than `2e-6` degrees, with the supersonic flows `M\u2081`, `M\u2082` of the simple wave: the two characteristics are drawn, the second is not steeper than the first, and it stays below it at every abscissa `X` from the second wall point on: they do not cross. (`C161_expansion` is a case where all hypotheses hold.) Missing: walls that turn by less than the accuracy of scipy's solution. | C161_focus_partial: **C161 (a compression wall, partial).** Where the wall turns up by more than `2e-6` degrees between `x\u2081` and `x\u2081 + 1e-4`, with the supersonic flows `M\u2081`, `M\u2082` of the simple wave there (`N`, slower than `M\u2082`, bounds its Mach angle), the two characteristics converge, and `plot_CP_focus` draws the first one to the point where they cross. (`C161_compression` is a case where all hypotheses hold.) Missing: walls that turn by less than the accuracy of scipy's solution. | C161_mach_partial: **C161 (the Mach number found by the iteration, partial).** When `mach` returns `m` at the point `(x, y)`, with solvers that return exact roots: there is a wall point `(xw, yw)` and a flow `m'` within `1e-6` of `m` whose downstream-running characteristic (direction: its angle in the simple wave plus its Mach angle) joins the wall point to `(x, y)`; the flow `mw` of the simple wave that follows the wall there is within `1e-6` of `m`. Missing: that the loop ends. | C161_focused_false: **C161 (the focused compression does not focus).** In the last cell (Mach 2, 15 degrees), the wall is straight on `(0, 1)`, at half the slope announced: all the characteristics drawn from there have the same slope, and no two of them have a common point."
  },
  {
   "property": "C162",
   "status": "partial",
   "theorems": [
    "Aerokit.Props.C162_runs",
    "Aerokit.Props.C162_shock",
    "Aerokit.Props.C162_interface",
    "Aerokit.Props.C162_wall",
    "Aerokit.Props.C162_mach",
    "Aerokit.Props.C162_mach_false",
    "Aerokit.Props.C162_times",
    "Aerokit.Props.C162_tail_partial",
    "Aerokit.Props.C162_tail_false",
    "Aerokit.Props.C162_expansion_false",
    "Aerokit.Props.C162_reshock",
    "Aerokit.Props.C162_ends"
   ],
   "note": "C162_mach_false: C162 (false for the printed Mach number of the reflected shock): it is the velocity of the shock over the speed of sound, negative and without the velocity of the gas ahead of the shock; the compression ratio printed on the line above is that of a larger Mach number, the one of the shock relative to the gas. | C162_tail_partial: C162 (partial: only for pressure ratios below `10.35`): the head of the expansion reaches the left wall at the positive time `t_exp_wall`, travelling in the driver gas at rest, and the drawn end of its tail is a later time on the same wall. | C162_tail_false: C162 (false for the drawn tail of the expansion): from a pressure ratio of about `10.35` on, the expanded driver gas flows away from the left wall at the speed of sound or faster; the tail never reaches the wall, and the time drawn for it is negative, or a division by zero. | C162_expansion_false: C162 (false for the drawn reflected expansion): it leaves the wall at the speed of a wave of the expanded gas, `q21.right_acoustic()`; but the first reflected wave leaves the wall into the driver gas at rest, and the drawn line is ahead of it from the start."
  },
  {
   "property": "C163",
   "status": "partial",
   "theorems": [
    "Aerokit.Props.C163_contour",
    "Aerokit.Props.C163_limits",
    "Aerokit.Props.C163_choked_false",
    "Aerokit.Props.C163_supersonic",
    "Aerokit.Props.C163_exit_shock",
    "Aerokit.Props.C163_shock"
   ],
   "note": "C163_choked_false: C163 (the throat, cell 9) fails: `Mach_Sigma` called with the scalar guess `.05` for the array of sections raises `ValueError`."
  },
  {
   "property": "C164",
   "status": "partial",
   "theorems": [
    "Aerokit.Props.C164_private_name_false",
    "Aerokit.Props.C164_subsonic",
    "Aerokit.Props.C164_sections",
    "Aerokit.Props.C164_throat",
    "Aerokit.Props.C164_throat_false"
   ],
   "note": "C164_private_name_false: C164 (cell 4) fails: `aerokit.aero.nozzle` is a star import of `aerokit.instance.nozzle`, which does not bind the private name `_NPR_Ms_list` (the public ones are there): the cell raises `AttributeError`. | C164_throat_false: C164 (the widget draws the limits of another nozzle) fails: with 400 points the throat is not sampled: the exit ratio of the object is strictly below the requested one, and its limit `NPR0` is strictly above the `NPR0` of the requested ratio that `iplot` draws; for every pressure ratio between the two, the drawn profile is isentropic (unit total pressure everywhere), although the pressure ratio is above the drawn limit of that regime."
  },
  {
   "property": "C165",
   "status": "proved",
   "theorems": [
    "Aerokit.Props.C165_low",
    "Aerokit.Props.C165_high",
    "Aerokit.Props.C165_inverses"
   ],
   "note": ""
  },
  {
   "property": "C166",
   "status": "partial",
   "theorems": [
    "Aerokit.Props.C166_rates",
    "Aerokit.Props.C166_normalised",
    "Aerokit.Props.C166_first_false"
   ],
   "note": "C166_first_false: C166 (the first point) fails: the first pressure ratio of the cell is 1, where both denominators are zero whatever the flow rate: the first point of the four normalised curves is undefined (a NaN of numpy)."
  }
 ]
}