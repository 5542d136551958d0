# Formal model of aerokit 1.2.1 in Lean 4 — design

## Layout

* `lean/Verif/Model/*.lean` — the model, one file per Python module, one Lean `def` per Python
  function/method, each citing file and lines.
* `lean/Verif/Spec/*.lean` — small independent specifications (conservation laws, solver contract,
  abstract registers, …) that the property theorems refer to.
* `lean/Verif/Lemmas/*.lean` — helper lemmas (evaluation lemmas, calculus).
* `lean/Verif/Props/*.lean` — the property theorems, named `Cnn_…` after `properties.jsonl`, each with
  an `example` showing that its hypotheses are met by a concrete non-trivial case.
* `tools/` — generates `properties.jsonl` / `MANIFEST.json`; `seeded/LOG.jsonl` — mutation log.

## Modelling conventions

* **Scalars** are exact reals (`ℝ`, Mathlib).  Floating point rounding, overflow and signed zeros are
  not modelled, except in `Model/Rounded.lean`: the explicit functions of Isentropic, MassFlow,
  ShockWave (normal shock), Fanno and Rayleigh once more, with every operation rounded by an arbitrary
  rounding of relative error at most `u` (C128, C129; no overflow, underflow, NaN or signed zeros).  Elementwise numpy functions are modelled by their scalar function; functions whose
  array structure matters (nozzle profiles, Riemann `qsol`, spectral matrices, eigenvalue selection)
  are modelled on lists or `Fin n → ℝ`.
* **Failures are values**: `Py α = Except PyErr α`.  Every partial operation is checked
  (`Model/Py.lean`); outside the real domain it returns `PyErr.nonFinite`, standing for "NaN/inf in
  numpy, ZeroDivisionError/complex in Python".  The model makes no statement about computations that
  continue after a NaN/inf.  Python exceptions (ValueError, KeyError, …) are separate constructors.
* **Default arguments** `gamma=defg._gamma` are evaluated once at import: a call that omits `gamma`
  is modelled with the constant `DefaultGas.gamma0 = 1.4`; the capture mechanism itself is modelled in
  `Model/DefaultGas.lean` (C35).
* **State** (objects, module globals) is passed and returned explicitly; where aliasing matters
  (`dicovar`, boundary-condition dictionaries) an explicit heap of dictionaries is used.
* **Loops**: bounded loops are structural recursions on the remaining count, `while` loops take fuel
  and report `outOfFuel`; termination is then a theorem about the existence of enough fuel.
* **External numerics** (`scipy.optimize.newton`, `fsolve`, `np.linalg.solve`, `lstsq`,
  `scipy.linalg.eig`, `np.argsort`) are parameters; the assumed contract is an explicit hypothesis
  (`Spec/Solver.lean` for root finders, `Spec/LinAlg.lean` for linear solves, `Spec/Eig.lean` for
  eigenvalues and sorting).  No theorem assumes that a solver converges unless it says so.
  The contracts of the root finders are idealisations: C139 models the secant loop of scipy itself and proves where it
  meets them (up to its tolerance) on the area ratio equation, and where it does not.

## Trusted base

* Lean 4.33.0 kernel and Mathlib as installed; no axioms of our own, no compiled evaluation.
  `#print axioms` over all property theorems gives at most `propext`, `Classical.choice`,
  `Quot.sound` (one theorem needs only `propext`, one only `propext` and `Quot.sound`); no other axiom
  occurs.
* The reading of the Python source into `Model/` (the code was not run; the sandbox has no numpy).
* The contracts of the external numerics, written as hypotheses of the theorems that use them.
* The small specifications in `Spec/`, which say in independent terms what conservation law, calculator,
  register, contract, eigenvalue or Taylor-Maccoll equation is meant.

## What is modelled, module by module

| Python module | Lean model | modelled | not modelled |
|---|---|---|---|
| aero/Isentropic, MassFlow, Fanno, Rayleigh, Supersonic, degree, Propulsion | same names | every function, scalar; on arrays: ArrayFns (C143) | arrays of different shapes broadcast together, doctest/`__main__` |
| aero/ShockWave | ShockWave | every function; the conical integration loop (embedded Runge-Kutta steps, step control, stopping test) with fuel; `conical_*` searches | printing |
| aero/Isentropic, MassFlow, ShockWave, Fanno, Rayleigh (explicit formulas), common/_ode (abscissas of RK4) | Rounded | the same functions with every operation rounded, in Python's evaluation order | overflow, underflow, NaN; logarithms, angles, searches |
| aero/IterativeSolve | IterativeSolve | the secant iteration, bounded by its iteration budget | printing |
| aero/CompressibleFlow, nozzle, riemann (aliases) | CompressibleFlow | every forwarding function | |
| aero/model1D, unsteady1D | Model1D, Unsteady1D | every method, list and scalar states | direct assignment to attributes |
| aero/ThermoRealGas, ThermoKerosen | Thermo | every function | |
| aero/plot/shockpolar, isentropicpolar | Plot | the plotted series (all points, all curves) | colours, labels, axes, `defaultstyle` |
| common/defaultgas | DefaultGas | globals, setters, import-time capture of defaults | |
| common/dicovar | Dicovar | global dictionary with aliasing (heap), histories of calls | printing |
| common/extendvar | Extendvar, Spec/Calculator | the formulas as strings, lexed and parsed by an independent calculator | |
| common/_ode | Ode | rk4, rkf45 and their drivers | printing |
| notebooks/Minimum_length_nozzle | MinNozzle | pmeyer … rapport_expansion, mach_via_pmeyer (fuel), the net and the wall of Minimum_length_nozzle | plots, printing, the interactive part |
| examples/ramjet-working | Ramjet | the four branches, with M0, M2, npts as parameters | titles, printing, colours |
| `scipy.optimize.newton` (external) | ScipyNewton | scalar secant branch of scipy ≥ 1.2, over the reals, as an instance of the solver parameter | derivative branches, vectorised branch, full output |
| common/numspectral | NumSpectral | Chebyshev nodes and differentiation matrices of every order and size | float cancellation |
| common/numspectral (arrays of the objects) | ChebHeap | xi, x, matder, compute_matder as references into a memory shared with the callers | extrapol, fit_to_gauss (they hand out new arrays) |
| common/_dev | NumSpectral, ChebHeap | `lazyprop` as used by `ChebCollocation` (cached values; cached arrays shared with callers) | other uses |
| stability/_base, Euler, OrrSommerfeld | LinOperator, Euler1D, OrrSommerfeld | constructor, setters, operators, boundary conditions, caches, eigenvalue selection; dictionaries aliased with the caller | non-string boundary types, plots |
| instance/nozzle | Nozzle | constructor, `set_NPR`, regimes, profiles, as an object with attributes | attributes half written when `set_NPR` raises |
| instance/riemann, unsteady_inflow | Riemann, Inflow | constructor, solve, wave speeds, `qsol` | plots |
| engine/gasgenerator, turbojet, turbofan | GasGenerator | class hierarchy, defaults, `update`, performances | `show_attributes` printing |
| engine/Cycle_Turbofan | CycleTurbofan | both classes, all `calculs_*`, `InitialValues`, `show` | text layout of `show` |
| engine/propu_be, propu_be_double_corps | PropuBE, PropuSweep | scripts and functions of the cycle, parametric study (`plot`, `main`) as drawn data | text output, figure layout |
| import statements of all modules | Imports | the import graph with `sys.modules` and failures | |
| examples/stability/shock | ShockModel | class `ShockModel` | prints, plots and eigenvalue part of the script left out |
| aero/MassFlow (39-63), aero/Supersonic (63-69) on arrays | ArrayNewton | `_array_newton` of scipy, `Mach_Sigma`, `MachSub_Sigma`, `MachSup_Sigma`, `Mach_PrandtlMeyer` on numpy values | warnings; arrays with fewer than two entries; rounding |
| examples/stability/euler1d | Tube | class `Tube` | eigenvalue part and plots of the script left out |
| examples/aero/validation_sigma_convergence | SigmaPlot | the curves of both panels | axes limits, styles |
| examples/rayleigh-heating, shockwave-polar, shockwave-polar-p | Charts | curves and label positions | the isentropic branch of shockwave-polar-p; titles, axes, styles |
| import statements of all scripts of examples and notebooks | Imports | `runImports` | packages outside aerokit are present or absent as a whole |
| notebooks/Riemann-GuideVane | GuideVane | the whole script | prints; the constants of the script are parameters |
| notebooks/remove_output | RemoveOutput | `remove_outputs`, the command line loop, its crash points | nbformat is a parameter; permissions, links, encodings, what the system loses by delayed writes |
| notebooks/aero/Caract-01-expansion.ipynb | ExpansionFan | init_case, flow_prop, integ (for smin ≤ 0 ≤ smax), global variables needed by plot_geom and plot_expansion | drawing |
| examples/turbofan.py | TurbofanMap | the arrays Opr and Bpr, the two arrays drawn over their mesh (entry by entry) | contours, figure |
| notebooks/Turbofan_pyclass_design.ipynb | PyclassNotebook | the classes of cells 6, 9, 14, 16 and the evaluations of cells 18 and 20, for any arguments | printed layout, `show_attributes` |
| notebooks/aero/Shock-22-shock-expansion.ipynb | WedgeNotebook | cells 5, 6, 9 and 11, for any Mach number and wall angles | figures |
| notebooks/aero/Shock-21-reflexion.ipynb, Shock-21-reflexion-widget.ipynb | ReflexionNotebook | cells 5, 6, 8 and the points of cell 9; the same statements of `plot_all` | figures, sliders |
| notebooks/aero/Caract-02-smooth wall.ipynb | SmoothWall | the walls of all cells, `wall_angle`, `mach_wall`, `mach` (fuel), the coordinates given to `plt.plot` by `plot_CP` and `plot_CP_focus`, `xy_intersect_rate`, `flow_prop`; `fsolve` a parameter | `integ` (as in ExpansionFan), figures |
| notebooks/aero/Riemann-Shocktube.ipynb | Shocktube | cells 3, 5, 7, 9, 11 and the numbers drawn by cell 13 (`t_exp_wall`, reflected expansion, tail); `Pinit`, `Pratio`, `Tisoth` parameters | figures; cell 14 (a wedge) |
| notebooks/aero/Nozzle-regimes.ipynb | NozzleRegimes | cells 2, 4, 9, 12, 13, 15, 16, 18; `target_AoAc`, number of points, `pos` and scipy's `newton` parameters; arrays as lists, elementwise | figures; the isobars of the plume |
| notebooks/aero/Nozzle-regimes-short.ipynb, Nozzle-widget.ipynb | NozzleShort | cells 2, 4, 6 of the first, 2 and 4 (sections of `iplot`) of the second; the star import of aero/nozzle as a filter on names | figures, sliders; the Python 2 `print` of the widget; cells 9 to 21 of the first (as in Nozzle-regimes, C163, or C65–C66) |
| notebooks/Sigma-approximation.ipynb | SigmaApprox | cells 1 and 2: the two approximations (at a point, any gamma) and the two inverse curves | figures; the vectorised newton iteration (elementwise in the model) |
| notebooks/aero/unsteady_inflow.ipynb | InletNotebook | cell 1: initial state, the two final states, their flow rates and the normalisation, at one ratio | figures; the star states (model Inflow: C64, C117) enter as any flow rate |
| aero/refstate, other notebooks and examples, tests | — | — | not part of the API used by the properties |

In every module: floats are exact reals (but see Rounded above); messages, warnings and docstrings are not modelled.

## Plan per property

P = prove in full about the model; F = the property is false of the code: prove its negation with a
witness, and prove the part that holds (`_partial`).

| id | model | plan |
|----|-------|------|
| C01–C04 | Isentropic | P: algebra with `rpow`; monotonicity by `rpow_lt_rpow` |
| C05–C06 | MassFlow | P: algebra; derivative sign of log Sigma |
| C07 | MassFlow | P: IVT + strict monotonicity; root finder contract as hypothesis |
| C08 | MassFlow | P for the side of 1, F for positivity (gamma > 7/5) |
| C09–C11, C13 | ShockWave | P: field algebra |
| C12 | ShockWave.Pt_ratio | F (gamma not forwarded); partial at gamma = 1.4 by calculus |
| C14–C18 | ShockWave oblique | P: trigonometry in tangents; cubic by triple angle formula |
| C19–C21 | Supersonic | P: derivative of arctan |
| C22–C23 | Fanno | P: algebra + derivative sign |
| C24–C26 | Rayleigh | P; C27 F (gamma ignored), partial at 1.4 |
| C28–C29 | IterativeSolve | P termination; C29 F |
| C30–C32 | _ode | P: induction on steps, polynomial identities |
| C33 | RKF45 | F (stop flag survives a rejected step); partial without rejections |
| C34 | defaultgas | P: refinement to registers over histories |
| C35 | defaultgas import binding | F; partial: captured at import |
| C36–C37 | dicovar heap model | P: invariant over histories |
| C38–C39 | dicovar | F; partial |
| C40–C43 | numspectral | P: Lagrange interpolation at Chebyshev nodes, all sizes and orders |
| C44 | LinOperator cache | F; partial before first solve |
| C45 | LinOperator BC | P |
| C46–C47 | Euler1D | P: block matrices, Jacobian |
| C48–C49 | Euler1D BC dict / RH index | F; partial |
| C50–C51 | OrrSommerfeld | P |
| C52–C53 | LinOperator | P with contracts for argsort/solve |
| C54, C56 | model1D | F (gamma dropped / wrong total); partial |
| C55 | model1D.state_RH | P |
| C57–C58 | unsteady1D | P |
| C59–C63 | riemann | P; C61 F on one point, partial elsewhere |
| C64 | unsteady_inflow | F for gamma ≠ 1.4 and wave getters; partial |
| C65–C66 | nozzle | P at the default gamma |
| C67–C68 | nozzle | F; partial |
| C69 | nozzle.set_NPR | P with solver contract |
| C70–C71 | engine | F for dropped arguments; balances P |
| C72–C73 | Cycle_Turbofan, propu_be* | P/F over histories |
| C74 | Thermo* | F exactly (coefficients rounded), exact deviation proved |
| C75–C76 | CompressibleFlow, degree | P |
| C77 | Extendvar + Spec/Calculator | P for the formulas read by an independent calculator; F for denominations and compound names |
| C78 | Propulsion | P for the formula; F for inversion (secant has no safeguard at the double root) |
| C79 | Imports | F (two broken imports); partial: all other modules import after any history |
| C80 | ShockWave conical + Spec/Solver | P relative to the ODE oracle: exit condition, boundary values, errors |
| C81 | Euler1D RH rows | F; partial: linearised jump relations on the left |
| C82 | Model1D indexing | F for arrays; partial |
| C83 | LinOperator/Euler1D/OrrSommerfeld caches | F; partial when no earlier failed request |
| C84 | Riemann initial guess | P equal gammas by convexity; F two gases |
| C85 | OrrSommerfeld | P by induction over histories |
| C86–C89 | GasGenerator | P/F: balances against Spec/Engine, inequalities, histories |
| C90 | ShockWave conical rhs + Spec/ConicalFlow | P: equivalence with the Taylor-Maccoll equation |
| C91–C92 | Plot + Spec/Polar | P: every point of every series lies on the polar; extremal points |
| C93 | ShockWave, Supersonic | P: limits and Taylor coefficients at the weak wave by calculus |
| C94 | MassFlow arrays + Spec/Solver | P by induction over the arrays |
| C95 | IterativeSolve | P by induction on the number of iterations, with concavity; `C95_beyond`, `C95_beyond_down`: starts beyond the root, first step undershoots and the invariant brackets the root |
| C96 | Supersonic, ShockWave | partial: Prandtl–Meyer: `C96_prandtlMeyer_air` (air, every Mach number from 1 to 450, no warning, angle within 0.0006°·Mach), `C96_prandtlMeyer_converges` (γ ≥ 1.11, from Mach 2), F beyond 10⁸ (iterations run out); explicit ranges for other gammas; total pressure ratio: every Mach number ≥ 1 returns, convergence to `7·10⁻⁵` without warning from 1.4985 to 6 (contraction of the secant error by the ratio of slopes, `Lemmas/PtSlope`, `PtSecant`), one-sided beyond, F beyond Mach 1000; F for a monatomic gas at the sonic point |
| C97–C98 | ShockWave | P: concavity of the polar by calculus; C98 proved for the default start with any positive attached deflection and for explicit starts on the weak branch (partial: starts above the weak angle whose first step leaves the range); convergence without the warning proved for Mach 1.01 to 2 and shocks up to 95 % of the maximal pressure rise, starting between the Mach angle and the shock angle, and in air with the default start for every Mach number from 1.01 on (concave polar: secant steps from the left controlled by a comparison with −cot; from the right by the variation of the slope), F at zero and negative deflections |
| C99–C100 | stability/_base | P: Rayleigh iteration (SoundSolveC) and modes (SoundEig contract on `scipy.linalg.eig`); F: the mode when started on an eigenvalue |
| C101 | model1D, unsteady1D | P: characteristic speeds defined from the flux derivatives of the conservation laws (Spec/Characteristics) |
| C102–C104 | engine | P: balances written on the jets (Spec/Engine: thrust, kineticPower, jetTemperature) |
| C105 | engine | P + F: Spec/Engine defines the ideal turbofan thrust and its optimal fan; the printed value is proved never optimal for pi_c >= 9 |
| C106 | state | heap model of numpy arrays (Model/StateHeap), writes interleaved in any order; deepcopy proved, the shallow copies refuted |
| C107 | state | private method proved (jump relations in the frame of the shock); public method has no body: refuted |
| C108 | shock | partial: secant iterates of the conical wall deflection; exact start returned. Missing: convergence |
| C109 | riemann | piecewise primitive of each conserved density glued at the waves (Rankine-Hugoniot at shocks, contact, continuity at fan edges), fundamental theorem off a countable set; entropy by monotonicity of the jump in the pressure ratio |
| C110 | ode | Lipschitz constant of one step <= exp(L h); Taylor expansion (Banach space, bilinear/trilinear derivatives) of the increment and of the solution agree to order 4; discrete Gronwall by induction over the loop |
| C111 | spectral | matder(m) is exact on polynomials of degree < n and these are determined by their nodal values; uniqueness by counting zeros of the polynomial, existence by finite dimension |
| C112 | spectral | generalised Rolle theorem on the zeros of the interpolation error (Lemmas/Interp), nodal polynomial bounded through the Chebyshev polynomial of the second kind |
| C113 | Euler1D | row by row reading of the matrices of per_ok / sym_ok as the linearised equations; change of unknowns to the characteristic variables; symmetries by reindexing |
| C114 | OrrSommerfeld | row by row reading of the matrices of wall_ok; symmetries through the parity (C111) and affine scaling of the differentiation matrices |
| C115 | RiemannScale | scaling of the velocity defect of both waves, uniqueness of the root, region by region for the sampled solution |
| C116 | RiemannMono | strict monotonicity of the velocity defects in pressure, comparison of the defect functions of two data at the same pressure |
| C117 | InflowWell | monotonicity of the total pressure on the inflow branch, intermediate values; the outflow root by continuity below the rest pressure |
| C118 | NozzleShock | total pressure loss as a strictly monotone function of the pressure ratio (exit flux), intermediate values for the shock Mach number; index: `FirstMin` of the inversion of `set_NPR`; accuracy of that inversion from C96 |
| C119 | DuctFlows | derivatives of the closed forms of the ratios with respect to the Mach number; the balance laws are then rational identities |
| C120 | DuctFlows | jump relations in M²; square roots compared by squares; total pressures from mass flow conservation (`sig_shock`) and the consistency theorems C22, C24 |
| C121 | NozzleMass | profiles of C67/C69 (area ratio at every point) combined with `Sigma = W(1)/W(M)` (C05); monotonicity of sigma and of the pressure ratio on the subsonic branch |
| C122 | EngineMono | `compute_inv` of both engines, monotonicity of each stage (fuel, turbine temperature ratio, powers with exponents), of the jet velocity |
| C123 | EngineScale | relational reasoning on the two runs (`PyRel`: same outcome, related values), statement by statement |
| C124 | CycleScale | relational reasoning (`PyRel`) stage by stage, transported to the objects by C72 and to the script by C73; `propu_be.calculs` directly |
| C125 | CycleScale | inversion of the stages; partial: the fuel momentum is missing in the thrust, the consumption is ten times the one of the displayed unit |
| C126 | PropuSweep | new model `PropuSweep` (`plot`, `main`); loop invariant: after `n` steps the first `n` columns are new, the others old |
| C127 | Hypersonic | no new model; every ratio rewritten as a function of 1/M² and its limit taken; deflection at fixed shock angle is increasing in M and below its limit, whose maximum over the angle is asin(1/γ) |
| C128 | Rounded | P; new model with an arbitrary rounding; errors measured by differences of logarithms (products add, sums take the maximum, subtraction multiplies by the condition number, powers by the exponent); with no rounding it is the exact model |
| C129 | Rounded | P for the shock strength; F for small Mach numbers (all digits lost, proved for correctly rounded binary arithmetic); error bound `O((1 + 1/M²) u)` otherwise |
| C130 | Rounded | P for steps larger than `u max(abs x, abs xStop)`: at most `n + 3` steps, last abscissa within `2u (xStop - x)` (Sterbenz and exact rounding errors), exactly `xStop` from `x >= 0` with `h <= xStop/2`; F: infinite loop for smaller steps, overshoot |
| C131 | Ode | P: expansion of explicit Runge-Kutta stages in the 17 elementary differentials of order <= 5 (uniform remainders), order conditions by rational arithmetic, Taylor expansion of the solution with Lipschitz fifth derivative, `exp(3/2 L h)` stability, induction on the list of accepted steps; floor of the step by invariant of the loop |
| C132 | Ode | P on `y' = lambda y` with steps below `1/(2 abs lambda)` (the estimate dominates the local error); F: a right-hand side vanishing at the six nodes is integrated with estimate 0 and arbitrary error |
| C133 | MinNozzle | P: equality of programs with Supersonic / MassFlow at gamma 1.27, derivative |
| C134 | MinNozzle | P: the slope of nu is unimodal with bounds, Newton from Mach 2 is monotone or contracts on each side of the maximum; divergence beyond the largest angle by monotone escape |
| C135 | MinNozzle | P: inversion of the run through an invariant of the table of points, specification `Spec.CharNet`/`Spec.CharWall`; F: the first point of the axis keeps the angle of the first wave |
| C136 | MinNozzle | P for 1 < M <= 3 (returns), and for 1 < M <= 3, or 1 < M <= 10 with at least 12 waves, each of at least 2.5e-5 rad (order and concavity of the wall): induction on the rows of an abstract net; missing: returns above Mach 3 (a horizontal descending characteristic makes the script divide by zero), Mach > 10 |
| C137 | ChebHeap | P: invariant of the memory (no two attributes share an array, cached addresses never change), refinement to the value model under histories without writes into own arrays; F: arrays are returned without copy, so a caller's write stays |
| C138 | Ramjet | P: inversion of the script into its six Mach numbers, intermediate value theorem and strict monotony of the total pressure loss for the only shock, mass conservation on a Rayleigh line, existence of the run with a complete solver |
| C139 | ScipyNewton, MassFlow | P: the loop on a convex increasing function (divided differences of the area ratio of air), contraction in the four positions of two iterates around the root, reflection for the subsonic branch, Bernstein certificates for the polynomial inequalities; domains: sub 1.000002–2000, sup 1.000001–50, default guess 1.08–2.4; F: false convergence from the default guess for every ratio ≥ 10⁴ |
| C140 | ScipyNewton, Riemann | P: slope of the velocity jump of both branches (decreasing, with P times slope increasing), hence convergence of the secant loop from any start between 0.8 and 1.45 times the root; the estimate solves the two-expansion equation, so it is the root for two expansions, and lies between the root and 1.44 times the root for air with shocks up to a pressure ratio 14 (Bernstein certificate); colliding streams: the first chord crosses zero at a negative pressure (`C140_collision_false`) |
| C141 | ScipyNewton, Supersonic | P: `Supersonic.Mach_PrandtlMeyer` instantiated with `ScipyNewton.scipy` (a multiple of the residual gives the same iterates, so the angle in radians is used): above Mach 2.0003 the iterates increase to the root and relative distances multiply (Fibonacci exponents), gamma >= 1.11; Mach 1.2–2.0003 contraction; Mach 1–1.2 second iterate on either side of the root, then halving in two turns or contraction; beyond the largest angle every step is at least 1, so the loop runs out. Partial: Mach up to 1e8, other gases above Mach 2.0003 only. |
| C142 | ShockModel, Euler1D, Model1D, ShockWave | P: constructor and `compute_operators` executed symbolically for any size; Mach profile from the conserved total temperature (monotone function of the velocity), involution of the shock relations for the upstream Mach number; the default `dM0dx=None` is shown to make the matrices impossible to compute (`_false`). Eigenvalues not modelled. |
| C143 | NpArray, ArrayFns | P: the code written with overloaded numpy operators on "float or array of shape ι, entries possibly NaN"; each closed form compared with the float model entry by entry; `np.vectorize` modelled as one run per entry with the captured closure; F: `if`/`while`/`assert`/`max` on an array of several entries raise `ValueError` (array of Mach numbers in `sigma_Mach_deflection`, any array in `weaksigma_…`, `strongsigma_…`, `Mn_Pt_ratio`, conical functions). |
| C144 | ArrayNewton | P: `_array_newton` of scipy modelled with its state arrays and exit rules; an entry invariant (`Entry`) with a common number of iterations is shown for each entry (convex secant steps as in C139, C141), so the loop ends with every entry converged; F: an array of area ratios with a float guess raises `ValueError`; unattainable turning angles in an array with attainable ones are answered without exception. |
| C145 | Tube, Euler1D | P: modes reduced to scalar collocation problems (C113); residual of the collocated equation is a multiple of `U_(N-1)` or `X U_(N-1)`; `∑ μ^k U_(N-1)^(k)(1)` is a Hurwitz polynomial (energy identity by discrete sums, any N), a real Hurwitz polynomial takes equal values at μ and -μ only on the imaginary axis; for `X U_(N-1)` real-rootedness from sign changes at integer points, evaluated by the kernel, N ≤ 100. Missing: odd numbers of points above 101 (periodic), the other parity above 101 points (walls). |
| C146 | SigmaPlot, ArrayNewton | P: from C144 and strict monotonicity of the area ratio on each branch (the root found is the original Mach number); asymptotes by continuity of powers; throat by l'Hôpital: the coefficient is `2/(γ+1)`, the script's is another one (false). |
| C147 | GasGenerator (turbofan) | P: the velocity of the fan jet is a geometric mean of two concave functions of the temperature ratio, hence concave in 1/bpr; chord inequality. With losses in inlet or nozzle: false (explicit bound, the thrust tends to minus infinity). |
| C148 | GasGenerator (turbofan) | P: both jet velocities are concave in the fan power ratio; optimality by tangent inequality (one direction) and Fermat's rule (other direction); existence and uniqueness by solving the linear equation of the squares. |
| C149 | Imports | F/P: four scripts import a package `aero` that does not exist (proved: they stop, whatever has been imported before); the others succeed from any import history (induction over the loader as in C79). |
| C150 | Charts | F/P: heating curves by inversion of the stagnation temperature ratio (C25, C26), strict monotonicity along the curve. False: the polar scripts use a float index (`IndexError` for every input); `maxTiratio_Mach` ignores gamma, so the heating curve of another gas does not start at the initial Mach number. |
| C151 | GuideVane (Riemann, MassFlow) | P: closed forms of the three states; the star state by strict monotonicity of the velocity jump (C59), types of waves by C60, total temperature behind the expansion from its Riemann invariant; the throat state is exhibited. |
| C152 | RemoveOutput | F/P: intermediate states as an inductive relation; crash safety by induction over runs for different names none of which is a backup name of another. False: a second run destroys the only original; a notebook that cannot be read no longer exists under its name. |
| C153 | RemoveOutput | P: induction over worksheets and cells, cells specified as dictionaries. |
| C154 | Turbofan, Turbojet, GasGenerator | P: closed form of both jets (FanSplit.form), energy balance of the fan spool, sign of the polytropic losses by real power inequalities. |
| C155 | ExpansionFan, Supersonic, Degree | P: closed form of the fan in the ray parameter (`tan`), derivatives of the closed forms for the equations of motion, induction over the steps for the characteristics; `p1p0` (taken from the wrong Mach number), large angles and a new kernel refuted (`_false`), the pressure by Cauchy's mean value theorem. |
| C156 | TurbofanMap, GasGenerator | P: closed form of every entry (ideal components: the jets share the power `K`), thrust as a function of the bypass ratio (derivative), bounds of `K` over the range of temperatures; the arrays by `arange` with the exact ceiling. |
| C157 | GasGenerator | P (partial): comparison of the gas generators (C122), closed form of the two jets (C147) in the variables of the low pressure turbine; for a lossy low pressure turbine only the changes that keep the pressure behind the combustor are compared. |
| C158 | PyclassNotebook, CycleTurbofan | P/F: both cells executed symbolically (progress counters and attributes); the exhaust velocities differ by `γ` replaced by `r`, whose radicands compare as `√2` and the exhaust Mach number; a design point with an exhaust Mach number above `√2` refutes equality. |
| C159 | WedgeNotebook, ScipyNewton | P (partial: shocks up to 95 % of the pressure rise at the largest deflection, Mach numbers up to 10): convergence of the weak-shock search in air, exact jump conditions at the reported angle; the angle behind the shock is at least 10/63 of the shock angle, which bounds the effect of using the wall angle; scipy's iteration for the expansion; end-to-end run at Mach 3, 30°, -20° by exact bounds on sines and arc tangents. |
| C160 | ReflexionNotebook, WedgeNotebook | P (partial: shocks up to 95 % of the pressure rise at the largest deflection, Mach numbers up to 10): the two shocks by C159; inclinations of the drawn segments; end-to-end run at Mach 2.8 and 18° by exact bounds on sines and arc tangents. |
| C161 | SmoothWall | P (partial: walls that turn by less than scipy's accuracy, end of the loop of `mach`): convexity of the ramp for the mean slope and the chords; monotone Prandtl–Meyer and Mach angles with the accuracy of C141; loop inversion for `mach`; `_false`: the focused compression (its wall is straight, all characteristics are parallel). |
| C162 | Shocktube | P: the four Riemann problems in closed form (C59, C60), signs of the velocity jump functions; helium against air by comparing `rho*KK`; second interaction by a degree-5 polynomial inequality; `_partial`/`_false`: tail of the expansion (sonic threshold in closed form), printed Mach number of the reflected shock, drawn reflected expansion. |
| C163 | NozzleRegimes | P: contour in closed form (`1 + (M-1) sin`), monotone area function on each branch; `newton` on the branch of its guess and complete; the shock regime from C66/C118; `_false`: cell 9 (scalar guess for an array of sections). |
| C164 | NozzleShort | P: contour in closed form (C163), subsonic branch; the throat is sampled iff 8 divides n - 1; `_false`: private name behind a star import, exit ratio of the object with 400 points. |
| C165 | SigmaApprox | P: closed forms; weighted inequality of the means (logarithms) for the large Mach numbers, `1 + x <= exp x` for the small ones; inverses by monotonicity of Sigma on each branch. |
| C166 | InletNotebook | P: closed forms of the two final states (rates), `_false`: at the first ratio, 1, the denominators of the normalised curves vanish. |

## Findings: properties that are false of the code

Each line is a theorem proving the failure, with its docstring.

* `C105_optimum_false` — C105 fails: the fan exit temperature printed by `calculs_tau_optimum` is never the optimal one of the ideal turbofan it is meant for, whatever the bypass ratio and the turbine entry temperature, for a compressor ratio above 9 (even if one takes for the turbine entry the temperature `cp_ Tt4 / cp` that has the same enthalpy in air). The code multiplies `tau_lambda` by `tau_r (tau_c - 1)` where the formula subtracts, and divides `tau_lambda` by the total instead of the static temperature.
* `C106_state_copy_false` — C106 fails for `state.copy`: whatever is written into an array of the copy is written into the original.
* `C106_symmetric_false` — C106 fails for `copysymmetric`: ... but density and pressure are the arrays of the original, and are changed together.
* `C107_public_false` — C107 fails for the public method: whatever supersonic shock velocity is given, the downstream state exists, but `shock_downstream`, which has no body, does not return it.
* `C125_consumption_false` — C125: the consumption `show_perfo` prints with the unit g/kN/s is never the consumption in that unit (unless no fuel is burnt); the thrust is never the thrust of the momentum balance (unless no fuel is burnt or the core jet is at rest).
* `C129_low_Mach_false` — **C129 is false for small Mach numbers**: in binary floating point with `p` digits (53 for float64), when `(γ-1) M² ≤ 2⁻ᵖ` (for air and float64: `M ≤ 1.6·10⁻⁸`) the temperature ratio of `M` is 1 and the Mach number recovered from it is 0: the relative error is total.
* `C12_false_for_other_gamma` — C12 is false of the code: with `gamma = 1.2` a sonic "shock" (no shock at all) is reported to *increase* the total pressure.
* `C130_overshoot_false` — **An exact end is false in general**: in every arithmetic rounding to nearest, `RK4` from `-1` to `xStop = 3·2⁻ᵖ⁻¹` with the step 2 makes one step and ends at `2·2⁻ᵖ`, beyond `xStop` by a third of it.
* `C130_small_step_false` — **Termination is false for smaller steps**: in every arithmetic rounding to nearest, `RK4` from 1 to 2 with the step `2⁻ᵖ⁻¹ > 0` runs forever (`x + h` rounds to `x`), whatever the right-hand side.
* `C132_tolerance_false` — C132 is false in general: for every tolerance and every bound `B` there is a polynomial right-hand side, with a known exact solution, for which the run from 0 to 1 with initial step 1 accepts its steps with an error estimate of exactly 0, reaches `xStop`, and is wrong by more than `B`.
* `C135_axis_false` — **C135** (false as one would state it) the points of the axis do not all have a flow along the axis: the first characteristic is not reflected.
* `C137_written_false` — **C137** the nodes are not protected: what a caller writes into the array it got from `x` (or `xi`) is what the object returns afterwards.
* `C139_contract_false` — the contract used elsewhere for the solver is therefore an idealisation: the algorithm of scipy does not meet it everywhere
* `C139_far_guess_false` — **C139 (defect).** `Mach_Sigma(sigma)` with its default guess 2.0 does not solve large area ratios, and does not say so: for every `sigma ≥ 10⁴` it returns a value within 10⁻⁸ of the guess, whose area ratio is about 1.69.
* `C140_collision_false` — **C140 (defect).** Two equal streams of air that collide fast enough are not solved: for every density, pressure and mean velocity, as soon as each stream moves at seven times its speed of sound or more towards the other, the first chord leads to a negative pressure and the constructor fails, although the problem has a solution.
* `C142_default_false` — C142 fails for the default value of `dM0dx`: without it the object is built, but its matrices can never be computed (`compute_operators` raises), for every number of points, length and Mach number.
* `C143_branch_false` — C143 (wave angle formulas on arrays): false. `weaksigma_Mach_deflection`, `strongsigma_Mach_deflection` and `Mn_Pt_ratio` test their arguments with `if`: an array of two or more entries in any argument of the first two, or in the pressure ratio of the last, raises `ValueError` (use `np.vectorize`, or the elementwise `deflection_Mach_sigma`).
* `C143_conical_false` — C143 (conical shocks on arrays): false. An array of two or more entries as shock angle, or as Mach number with a shock angle of at least a millionth of a degree, makes `conical_deflection_Mach_sigma` raise `ValueError`; so do an array of Mach numbers for `conical_sigma_Mach_walldeflection` and any array for `conical_Mach_walldeflection_sigma`.
* `C143_search_empty_false` — C143 (empty arrays): unlike the closed forms, which give back an empty array, the secant searches raise `ValueError` on an array without entries.
* `C143_sigma_Mach_false` — C143 (shock angle search, array of Mach numbers): false. `sigma_Mach_deflection` called with an array of two or more Mach numbers (between 1 and 5000) raises `ValueError`, whatever the deflections (floats or array, nonnegative): the elementwise `secant_solve` calls a function that has captured the whole array.
* `C144_float_guess_false` — **C144 (defect).** An array of area ratios with a float guess is refused: `Mach_Sigma(sigma)` with its default guess 2.0, or any other float, raises `ValueError` for every array of at least two area ratios, whatever the gas.
* `C144_unattainable_false` — **C144 (defect: unattainable angles in an array are answered silently).** Default gas. The largest turning angle is `90 (√6 - 1)` (130.45°), and the float call raises "failed to converge" from there on (C141). But in an array with at least one attainable angle (of a Mach number from 1 to 10⁸) and any number of unattainable ones the search does not raise: it returns a Mach number for each unattainable angle too, whose own angle is smaller than the requested one. (The attainable entries are still right, within 2e-6 degree.)
* `C146_panel_false` — The curves of the right panel of the script, in the neighbourhood of Mach 1: the second one is above the area ratio.
* `C146_throat_false` — **C146 (defect).** The curve `sig2`, drawn as the expansion at Mach 1, is the expansion of second order for no other gas than the one with `γ² + 6γ = 11` (`γ ≈ 1.472`); in particular not for the gas of the script.
* `C147_losses_false` — **C147 (defect of the expectation).** With a total pressure loss in inlet or nozzle, in flight, more bypass air ends up costing thrust: beyond some bypass ratio the thrust is smaller than any given value.
* `C149_scripts_false` — C149 is false: where no package `aero` is installed, `rayleigh-diag.py`, `rayleigh-heating.py`, `shockwave-polar.py` and `shockwave-polar-p.py` stop at their imports, whatever has been imported before.
* `C150_other_gas_false` — the heating chart would be wrong for another gas: `maxTiratio_Mach` ignores its argument `gamma`, and the curve drawn by the same loop for any `gam ≠ 1.4` and any initial Mach number below 1 does not start at the initial Mach number.
* `C150_polar_false` — C150 is false for the polars: with Python 3, `npoints/2` and `npoints/3` are floats, so that both scripts stop with an `IndexError` at the label of their first polar, for every gas, every number of points and every list of Mach numbers.
* `C152_twice_false` — C152 is false for a file cleaned twice (named twice, or in two runs): when the file held the only copy of its text, and the cleaned text and the text cleaned again differ from it, no file holds the original any more.
* `C152_unreadable_false` — C152 is false for a notebook that cannot be read: the run stops, and the file does not exist any more under its name.
* `C152_unwritable_false` — C152 is false for a notebook that cannot be written: the run stops, and the file is empty under its name; the original is in the backup file only.
* `C155_case_false` — **C155 (the case) is false of the code beyond that**: a wall the flow can follow (`om0 - ang` below the maximum), but not twice: `init_case` fails, whatever the root finder, because the pressure ratio is computed from the flow AFTER the corner.
* `C155_fresh_false` — **C155 is false of the notebook as it is**: in a new kernel nothing has called `init_case` when the second cell calls `plot_geom()` (nor when `plot_expansion()` is called), and the cell raises `NameError`.
* `C155_pressure_false` — **C155 (pressure ratio) is false of the code.** `p1p0` is not the ratio of the pressure after the corner to the pressure before it: for every initial Mach number from `√2` on and every non-zero angle of the wall it is strictly smaller.
* `C158_false` — **C158 is false of the notebook**: for this engine (bypass ratio 5, `Tt4 = 1600`, the gases of the notebook) cell 20 shows the performances `p` of the package, and cell 18 does not show them: its thrust, if shown, is smaller.
* `C160_zero_false` — C160 fails on a flat wall (`wdev = 0`, the lowest position of the slider of the widget version): at every supersonic Mach number of the other slider (up to 10) `sigma_Mach_deflection` returns the angle 0 instead of the Mach angle, the normal Mach number is 0, and no number is obtained behind that "shock".
* `C161_focused_false` — **C161 (the focused compression does not focus).** In the last cell (Mach 2, 15 degrees), the wall is straight on `(0, 1)`, at half the slope announced: all the characteristics drawn from there have the same slope, and no two of them have a common point.
* `C162_expansion_false` — C162 (false for the drawn reflected expansion): it leaves the wall at the speed of a wave of the expanded gas, `q21.right_acoustic()`; but the first reflected wave leaves the wall into the driver gas at rest, and the drawn line is ahead of it from the start.
* `C162_mach_false` — C162 (false for the printed Mach number of the reflected shock): it is the velocity of the shock over the speed of sound, negative and without the velocity of the gas ahead of the shock; the compression ratio printed on the line above is that of a larger Mach number, the one of the shock relative to the gas.
* `C162_tail_false` — C162 (false for the drawn tail of the expansion): from a pressure ratio of about `10.35` on, the expanded driver gas flows away from the left wall at the speed of sound or faster; the tail never reaches the wall, and the time drawn for it is negative, or a division by zero.
* `C163_choked_false` — C163 (the throat, cell 9) fails: `Mach_Sigma` called with the scalar guess `.05` for the array of sections raises `ValueError`.
* `C164_private_name_false` — C164 (cell 4) fails: `aerokit.aero.nozzle` is a star import of `aerokit.instance.nozzle`, which does not bind the private name `_NPR_Ms_list` (the public ones are there): the cell raises `AttributeError`.
* `C164_throat_false` — C164 (the widget draws the limits of another nozzle) fails: with 400 points the throat is not sampled: the exit ratio of the object is strictly below the requested one, and its limit `NPR0` is strictly above the `NPR0` of the requested ratio that `iplot` draws; for every pressure ratio between the two, the drawn profile is isentropic (unit total pressure everywhere), although the pressure ratio is above the drawn limit of that regime.
* `C166_first_false` — C166 (the first point) fails: the first pressure ratio of the cell is 1, where both denominators are zero whatever the flow rate: the first point of the four normalised curves is undefined (a NaN of numpy).
* `C27_false_otherwise` — C27 is false of the code: for every `gamma ≠ 1.4` and every `M ≠ 1` the product of the maximum heating ratio and of the heating ratio at that gamma is not 1 (the argument gamma is ignored).
* `C29_false` — C29 is false of the code: for EVERY function `f` and every target `y`, a start with `|x| ≤ 0.01` (in particular `x = 0`) is returned as `0.999 x`, with no iteration and no warning.
* `C33_false` — C33 is false of the code: after a rejected last step the flag `stopper` stays set, so the run ends at the next accepted step. Here, on `[0, 1]` with `h = 0.5`, `tol = 1e-6`, the run stops (after 3 of its 10000 iterations) at `x = 0.725`.
* `C35_false` — C35: concretely, importing any module and then calling `set_gamma(g)` for any `g ≠ 1.4` leaves its functions at 1.4 although `defaultgas.gamma()` answers `g`.
* `C35_false_frozen` — C35 is false of the code, in the strongest sense: once a module is imported, the gamma its functions use when `gamma` is omitted never changes again, whatever calls to `set_gamma`, `restore_default`, … or other imports follow.
* `C38_false` — C38 is false of the code: from every reachable state, a request for an unknown software raises `ValueError` AND empties the current database: every name becomes undefined.
* `C39_variables_false` — C39 (variables) is false of the code: at import `dv['u_avg']` is defined and `dv['U_avg']` raises `ValueError`.
* `C44_after_exception_false` — C44 also fails after an exception: asking for the matrices before `set_BC` raises ValueError, but the next request, made after a valid `set_BC`, silently returns matrices without any boundary condition (`At` is the identity).
* `C44_false` — C44 fails: on 3 points, solve with a fluid at rest, then set a base state moving at velocity 1: the matrices returned are not those of the current base state (the Jacobian applied to the density perturbation `x` is `-1`, the row gives 0).
* `C44_stale_false` — the general defect: once matrices are stored, any number of `set_basestate`/`set_BC` calls leaves `get_RHS_time_matrices` (hence `solve_eig` and `converge_eigenpair`) with the old matrices.
* `C48_false` — C48 fails for symmetry conditions: the first `Euler1D.compute_operators` succeeds, the second raises KeyError (the dictionaries have lost their type), and leaves in `_B`, `_At` matrices without boundary conditions, which `get_RHS_time_matrices` then returns.
* `C48_same_dict_false` — C48 fails for a dictionary used on both sides: KeyError at the first computation.
* `C49_right_false` — C49 fails on the right: after any history, if `set_BC(L, R)` accepted a right condition named `RH`, then `compute_operators` raises, whatever the left condition, the base state and the parameters.
* `C54_false` — C54 is false for every other gamma (and `M ≠ 0`): the new state has another Mach number and another total temperature.
* `C56_false` — C56 is false: even for the default gamma, the total pressure of the new state is the value of `rTtot` of the old one, so it is kept only for states whose total pressure equals `r·Ttot`.
* `C56_false_gamma` — C56 also loses gamma: the result always carries the default gamma.
* `C56_false_witness` — a state at rest with unit density: `rTtot = 100000 = Ptot` only because `rho = 1`; with `rho = 1.2` they differ, so the total pressure is not kept
* `C61_false` — C61 is false at the inner edge of a right expansion: there `qsol` returns the *left* state.
* `C61_false_gamma` — C61 is false for two gases: between `x/t = 0` and the contact (moving right), `qsol` returns the density, velocity and pressure of the left star state with the gamma of the *right* gas.
* `C64_false_fastest` — C64 is false: after any sequence of calls `solve_with_pt0_rtt0` (any solver, any arguments, failed calls leaving the object as it was), `left_fastest` and `right_fastest` raise AttributeError.
* `C66_false` — C66 is false once the default gas is changed (as the module docstring tells the user to do): `Ms_from_AsAc_NPR` reads the current `defg._gamma` (here 3) while the limits use the value captured at import; for every area ratio the exit Mach number at `NPR0` is not the choked-subsonic one.
* `C67_false` — ... and for the monatomic gas `gamma = 5/3` and a nozzle of exit area ratio 169/128 whose choked-subsonic exit Mach number is 1/2, `NPR0` is not the total over static pressure ratio at Mach 1/2.
* `C67_limits_ignore_gamma_false` — C67 is false: the regime limits of a nozzle do not depend on `gamma` at all ...
* `C68_false` — C68 is false: the slot used by `save_default`/`restore_default` is overwritten, so a user's own saved gas is lost: after save, change, build a nozzle, `restore_default()` no longer gives back the saved gamma.
* `C69_false_convergent` — C69 is false for a convergent nozzle (throat at the exit): no choked flow can be computed, `set_NPR` raises for every pressure ratio from `NPR0` on.
* `C69_false_shock_at_throat` — C69 is false when the shock stands near the throat: if the point whose Mach number is closest to the shock Mach number is the throat (or any point where the area ratio is below 1/loss), `set_NPR` cannot return a profile.
* `C69_false_witness` — C69 fails on a real case: there are a solver that finds every root, a section law `[A, 1, A]`, and a pressure ratio strictly between `NPR0` and `NPRsw` (shock of Mach number 1.5 in the diffuser) for which the nozzle object is built but `set_NPR` raises.
* `C70_combustion_false` — **C70 (combustion) is false of the code**: the constructor argument `eta_cc` is dropped. With `eta_cc = 0.9` the stored fuel to air ratio does not balance the chamber.
* `C71_turbofan_xi_nozzle_false` — **C71 (turbofan nozzles) is false of the code**: the constructor argument `xi_nozzle` is dropped. A feasible turbofan built with `xi_nozzle = 0.9` has no nozzle loss.
* `C72_calcule_complete_false` — Running `InitialValues` again resets the progress counter: `calculs_5_to_9` then computes nothing, without an error.
* `C72_calcule_show_false` — Running the stages one by one without `perfo`, then `show_perfo`, raises `AttributeError`.
* `C72_fixe_complete_false` — Running `InitialValues` again resets the progress counter: `calculs_5_to_9` then computes nothing, without an error.
* `C72_fixe_show_false` — Running the stages one by one without `perfo`, then `show_perfo`, raises `AttributeError`.
* `C73_fixe_false` — For every fan with a pressure ratio above one, the class and the script disagree: the class uses the efficiency of the core compressor for the fan.
* `C73_fixe_witness_false` — Hypotheses of `C73_fixe_false`: class and script both return, and give different results.
* `C74_enthalpy_false` — C74 is false as stated for the real gas: `Cp` is not the derivative of `Enthalpy`.
* `C75_false` — C75 is false for omitted `gamma` when `set_gamma` is called before the first import: the new function uses the modified default, the legacy one the literal 1.4.
* `C77_all_denominations_false` — C77, false part (names that are kept): "the returned dictionary contains the denominations of the database" fails for `V` and `T`, whose entries are replaced by formulas.
* `C77_compound_false` — C77, false part (denominations are pasted without parentheses): with the pressure denominated by a sum, `setVar('P', 'PG+100000')`, the formula of the temperature has not the value `(PG + 100000)/(287.1 RHO)`: only the constant is divided.
* `C77_mx_false` — C77, false part (axial Mach number): after `setVar('Vx', 'VX')`, on a data set holding exactly the denominated fields, the formula of `Mx` has no value (it names the field `U_X`), although every other hypothesis of `C77_values` holds.
* `C78_inverse_false` — C78 is false in full: with a small starting Mach number the returned value does not satisfy the equation (`thrust` is never looked at).
* `C79_false` — C79 is false: in every environment that has no stray top-level `dicovar` (resp. no `aerokit.IterativeSolve`), after any history of imports, importing `common.extendvar` (resp. `aero.Propulsion`) fails.
* `C81_false` — C81 fails: a steady shock between two uniform flows (`ρ = 4` upstream, `ρ = 14` downstream, no upstream gradient: `dM0dx = 0`) may be moved without changing any flow quantity, but the density boundary equation is not satisfied by a pure displacement (`v` is zero except the displacement, `w = 0`): the flow perturbations are coupled to the position of the shock through the defect of `state_isentropic_Mach`.
* `C82_false` — C82 fails for gamma: the state of a point of a flow of any other gas has gamma 1.4, and a different Mach number.
* `C83_false` — C83 fails: the same final configuration (a base state and periodic conditions) gives different matrices according to whether a request was made, and failed, before the boundary conditions were set: the first row of `At` is zero (boundary equation) in one case, the identity in the other.
* `C83_orrsommerfeld_false` — C83 fails for `OrrSommerfeldModel` too: computing before `set_BC` raises `TypeError` but leaves the matrices without boundary rows, which `get_RHS_time_matrices` then returns, even after walls have been set: the wall rows are not imposed.
* `C84_two_gases_false` — C84 fails for two gases: gamma 1.5 and 3, same pressure and sound speed, moving apart at velocity 4: the Riemann problem has a solution, but the initial guess is not a number, so the problem cannot be built whatever the root finder.
* `C86_false` — **C86 is false of the code**: whenever the turbine exit pressure exceeds `P19`, the work returned is negative while the ideal work is positive.
* `C86_thermal_false` — **C86 is false for the thermal efficiency too**: it is the ideal work divided by the heat `far · Pci`, times `-1/(γ-1)`; whenever the turbine exit is above the ambient pressure and fuel is burnt, the efficiency returned is negative.
* `C88_false` — **C88 is false of the code**: there is an engine (overall pressure ratio 128, 2000 K, Mach 1, nozzle losses such that the exhaust velocity equals the flight velocity) whose propulsive efficiency is 2.
* `C89_generator_false` — **C89 is false for the gas generator**: `Wsp_TBP_ideal()` (hence `thermal_efficiency`) mixes the new ambient pressure with the turbine exit of the last update.
* `C96_hypersonic_false` — C96 is false for very strong shocks: from Mach 1000 on, the Mach number returned is less than half of the exact one.
* `C96_monatomic_false` — C96, negative part: for a monatomic gas (`γ = 5/3`) the search does not invert the Prandtl–Meyer function at the sonic point. The angle of Mach 1 is 0, but asked for the Mach number of the angle 0 the search computes a first iterate below Mach 1, where the function is not a real number, and fails.
* `C96_prandtlMeyer_hypersonic_false` — C96 (`old_Mach_PrandtlMeyer`), false for hypersonic Mach numbers: beyond `10⁸` the search exhausts its iterations, prints its warning and returns less than half of the Mach number.
* `C98_negative_false` — C98 is false of the code for negative deflections: the default start is the Mach angle PLUS the negative deflection. For the deflection `-μ` the search starts at 0, in the dead zone of the secant solver, and 0 is returned with no warning.
* `C98_zero_false` — C98 is false of the code at zero deflection: the weak solution is the Mach angle, the search finds it, and the function multiplies it by `sign(0) = 0`: it returns 0 degrees, which is not a shock angle.
* `C99_mode_false` — C99 fails for the mode: started from an exact eigenvalue, `converge_eigenpair` returns the starting mode (normalised), whatever it is and however many iterations are asked: the singular matrix is met with `exit`, which does nothing.

## Mutation testing

`seeded/LOG.jsonl` holds one line per edited model.  The edits are made in a scratch copy, the whole
project is rebuilt, and the theorems that no longer check are recorded, including those downstream of
a failing lemma.
