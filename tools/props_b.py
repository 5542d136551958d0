# source of properties.jsonl (second part)
from props_a import p, P, A, C, I, S, N, CONT
p("C44","Operators follow the base state","After set_basestate the matrices used by solve_eig/converge_eigenpair correspond to the current base state and boundary conditions.","all histories of set_basestate/set_BC/get_RHS_time_matrices","Stale cache: needs a history in which the state changes after the first solve.",[S+"_base.py: LinOperator.get_RHS_time_matrices, set_basestate"])
p("C45","Boundary condition names are validated","set_BC accepts exactly the registered names (string or dict) and otherwise raises ValueError (KeyError for a dict without type) leaving the previous boundary conditions in place.","all arguments, all histories","Universal over arguments.",[S+"_base.py: set_BC, _check_BC"])
p("C46","Euler1D operator is the linearised Euler equation","-B (before boundary rows) is the exact Jacobian of the collocated nonlinear 1D Euler equations at the base state; on a uniform base state it is the constant-coefficient operator.","all npts, base states with rho != 0, perturbations","All sizes and all base states.",[S+"Euler.py: compute_operators"])
p("C47","Euler1D boundary rows","Periodic rows hold iff value and first derivative match at both ends for each variable; symmetry rows hold iff u=0 and rho,p derivatives vanish at the boundary; interior rows are untouched.","all npts, all vectors","All sizes.",[S+"Euler.py: setBC_per, setBC_sym"])
p("C48","Euler1D operators can be recomputed","Calling compute_operators again (or giving the same BC dict for both sides) succeeds and gives the same matrices.","all histories of compute_operators","compute_BC pops the 'type' key: the second call is what fails.",[S+"Euler.py: compute_BC"])
p("C49","Rankine-Hugoniot boundary on either side","set_BC accepts RH on the left or on the right boundary and compute_operators succeeds.","all npts, both sides","Row index arithmetic for every n.",[S+"Euler.py: setBC_RH, compute_BC"])
p("C50","Orr-Sommerfeld operator","On polynomial perturbations of degree < n and polynomial base profile, interior rows of At and B are the Orr-Sommerfeld operators; wall rows impose v=v'=0 at both ends.","all n>=4, alpha, Reynolds != 0, profiles and perturbations","All sizes and parameters.",[S+"OrrSommerfeld.py: compute_operators, setBC_wall"])
p("C51","Orr-Sommerfeld base state validation","set_basestate raises DictKeyError iff one of alpha, Reynolds, uprofile is missing, and then leaves the previous base state in place.","all dictionaries, all histories","Universal over dictionaries.",[S+"OrrSommerfeld.py: set_basestate"])
p("C52","Eigenvalue selection and sorting","select_and_sort returns exactly the eigenvalues in the half-open/open box with their eigenvectors, and order sorts them (real ascending or imaginary descending).","all eigenvalue lists, all bounds","All sizes.",[S+"_base.py: select_and_sort"])
p("C53","Rayleigh quotient convergence keeps a unit eigenvector","converge_eigenpair returns a unit-norm mode; an exact eigenpair is returned unchanged (up to normalisation).","all operators, all starting pairs, all niter","All sizes and iterates.",[S+"_base.py: converge_eigenpair"])
p("C54","State constructors reproduce their inputs","compute_from_pt_rtt_M / _u / _p produce a state whose Ptot, rTtot and Mach/velocity/pressure are the given ones.","all pt,rtt>0, M/u/p in range, all gamma>1","The state forgets gamma: true at gamma=1.4 (all tests) only.",[A+"model1D.py: compute_from_pt_rtt_M, compute_from_pt_rtt_u, compute_from_pt_rtt_p"])
p("C55","Rankine-Hugoniot state","state_RH conserves mass flow, momentum flux and total enthalpy, keeps gamma, and applying it twice returns the original state.","all states with rho,p>0, u with M^2>(gamma-1)/(2gamma)",CONT,[A+"model1D.py: state_RH"])
p("C56","Isentropic state change","state_isentropic_Mach keeps total pressure, total temperature and gamma.","all states, all target Mach numbers","The defect cancels when Ptot=rTtot.",[A+"model1D.py: state_isentropic_Mach"])
p("C57","Unsteady shock relations","delta_u_shock and rho_through_shock are the Hugoniot of a moving shock: with the shock speed given by mass conservation, momentum and energy are conserved; they agree with _rankinehugoniot_from_ushock.","all states, all p>p0, all gamma>1",CONT,[A+"unsteady1D.py: delta_u_shock, rho_through_shock, _rankinehugoniot_from_ushock"])
p("C58","Unsteady expansion relations","delta_u_expansion and rho_through_isentropic keep the entropy and the Riemann invariant u +- 2a/(gamma-1).","all states, all p>0, all gamma>1",CONT,[A+"unsteady1D.py: delta_u_expansion, rho_through_isentropic"])
p("C59","Riemann problem is well posed","The velocity-jump function of the Riemann problem is continuous and strictly increasing in p; it has a unique root iff no vacuum is created; pstar/ustar are that root and ustar is the common star velocity from both sides.","all left/right states, all gammas","Uniqueness over a continuum.",[I+"riemann.py: _solve, _delta_uL, _delta_uR, _ustar_from_pstar"])
p("C60","Riemann wave speeds are ordered","waves[0] <= waves[1] <= waves[2] <= waves[3] <= waves[4]; shocks are faster than the acoustic speed ahead (Lax).","all left/right states without vacuum",CONT,[I+"riemann.py: riemann_pb.__init__"])
p("C61","Riemann solution is self-similar piecewise","qsol returns qL left of the left wave, the star states on each side of the contact, qR right of the right wave, and the isentropic fan inside expansions.","all states, all x/t values","The value exactly on the foot of a right expansion is wrong; every x/t must be considered.",[I+"riemann.py: qsol"])
p("C62","Riemann symmetry and Galilean invariance","Mirroring the data mirrors the solution; adding a constant velocity shifts all wave speeds and velocities by it.","all states, all shifts",CONT,[I+"riemann.py: riemann_pb"])
p("C63","Double expansion estimate is exact","When both waves are expansions and gammas are equal, _pstar_estimate_expansion is the exact star pressure.","all such states",CONT,[I+"riemann.py: _pstar_estimate_expansion"])
p("C64","Inflow problem","solve_with_pt0_rtt0 gives a left star state with total conditions (pt0, rtt0), and equal pressure and velocity on both sides of the contact; right_fastest/left_fastest are available.","all initial states, pt0, rtt0",CONT,[I+"unsteady_inflow.py"])
p("C65","Nozzle pressure ratios are ordered","1 < NPR0 < NPRsw < NPR1 for every area ratio > 1.","all As/Ac > 1",CONT,[I+"nozzle.py: NPR_choked_subsonic, NPR_shock_at_exit, NPR_choked_supersonic"])
p("C66","Exit Mach number conserves mass through the shock","In the shock-in-diffuser regime the returned exit Mach number conserves mass flow between throat and exit, and the three regimes connect continuously at NPR0 and NPRsw.","all As/Ac>1, all NPR",CONT,[I+"nozzle.py: Ms_from_AsAc_NPR, Madapt_from_AsAc_NPR"])
p("C67","Nozzle object honours its gamma argument","A nozzle built with gamma has regime limits and profiles computed with that gamma.","all gamma, all section laws","All tests use gamma=1.4.",[I+"nozzle.py: nozzle.__init__, set_NPR"])
p("C68","Building a nozzle has no side effect on the default gas","defaultgas state (current and saved values) is the same before and after building a nozzle.","all histories","The saved slot is overwritten: visible only in a save/nozzle/restore history.",[I+"nozzle.py: nozzle.__init__", C+"defaultgas.py"])
p("C69","Nozzle profiles","set_NPR gives arrays of the length of the section law; Ptot is 1 upstream and the loss downstream of the shock; Ps = Ptot/PtPs(Mach); each point has the local area ratio; throat index is the first minimum.","all section laws, all NPR","All array lengths.",[I+"nozzle.py: set_NPR"])
p("C70","Gas generator energy balances","far balances the combustion energy with efficiency eta_cc, and turbine power times shaft efficiency equals compressor power.","all parameters","The combustion efficiency argument is silently dropped.",[N+"gasgenerator.py: base.update"])
p("C71","Turbojet and turbofan performances","thermoprop = thermal*propulsive efficiency; ideal turbojet exhaust is adapted; turbofan fan power equals the turbine power delivered; all constructor arguments are used.","all parameters","xi_nozzle of the turbofan is silently dropped.",[N+"turbojet.py", N+"turbofan.py"])
p("C72","Cycle stages can be run in any order","For any history of stage calls on a cycle object, completed stages hold exactly the values of the straight-line computation, and calculs_5_to_9 completes from any reachable state; show_perfo never raises.","all histories of method calls","Unbounded histories of a stage machine.",[N+"Cycle_Turbofan.py"])
p("C73","Class and script versions of the turbofan cycle agree","cycle_taux_fan_calcule gives the same performances as propu_be_double_corps.calculs, and cycle_taux_fan_fixe the same as propu_be.calculs.","all design parameters",CONT,[N+"Cycle_Turbofan.py", N+"propu_be.py", N+"propu_be_double_corps.py"])
p("C74","Real gas and kerosene tables are thermodynamically consistent","Cp is the derivative of Enthalpy, Phi the integral of Cp/(r T ln 10), Gamma = Cp/(Cp-r) > 1.","all temperatures T>0",CONT,[A+"ThermoRealGas.py", A+"ThermoKerosen.py"])
p("C75","Legacy interface equals the new one","Every CompressibleFlow function and every Ti/Pi alias returns the same value (and fails in the same cases) as the function it wraps.","all arguments",CONT,[A+"CompressibleFlow.py", A+"Isentropic.py", A+"ShockWave.py"])
p("C76","Degree trigonometry","degree.asin/acos/atan invert sin/cos/tan on their ranges; sin^2+cos^2=1; cos(a)=sin(a+90); atan2 gives the polar angle in (-180,180].","all angles",CONT,[A+"degree.py"])
p("C77","Extended variable expressions","expressions_from_rhopv returns, for a database that defines P, rho, V, Vx, Vy, all denominations plus formulas whose value is the perfect-gas quantity (Mach, total pressure, ...); it raises ValueError for incomplete databases and never changes the database.","all databases, all flow states","Universal over flow states and databases.",[C+"extendvar.py"])
p("C78","Thrust function","ThrustFunction is Sigma/PtPs*(1+gamma M^2), has its minimum at M=1, and Mach_ThrustFunction inverts it.","all M>0, all gamma>1",CONT,[A+"Propulsion.py"])
p("C79","Every module can be imported","Importing any aerokit module succeeds when its third-party dependencies are installed.","all modules","No test imports Propulsion or extendvar.",[A+"Propulsion.py", C+"extendvar.py"])
p("C80","Conical shock iteration","conical_deflection_Mach_sigma returns only when wall and flow angle agree within tol, and then the mean of both; conical_Mach_walldeflection_sigma asserts sigma>deflection.","all Mach, sigma, gamma, all tol <= |sigma|, any number of passes","Unbounded while loop.",[A+"ShockWave.py: conical_deflection_Mach_sigma"])
p("C81","Rankine-Hugoniot boundary equations","With RH on the left boundary the three boundary equations are the linearised jump relations of a moving shock; a pure displacement of a shock between two uniform flows satisfies them.","all base states, all dM0dx, all perturbations","All sizes, all states: tests compare one spectrum.",[S+"Euler.py: setBC_RH"])
p("C82","Indexing a state","q[i] is the state at point i (also for negative i), with the gamma of q; out of range raises IndexError; a scalar state raises AssertionError.","all states, all integers","Universal over sizes and indices; all tests use the default gamma.",[A+"model1D.py: state.__getitem__"])
p("C83","A failed computation has no lasting effect","If get_RHS_time_matrices raises, the matrices returned later (once the cause is fixed) are those a fresh object would return.","all histories","Needs a history with an exception in the middle.",[S+"_base.py: get_RHS_time_matrices", S+"Euler.py: compute_operators"])
p("C84","Initial guess of the Riemann solver","Whenever the Riemann problem has a solution the initial guess of the star pressure is a positive number.","all left/right states, all gammas","Tests use one gamma.",[I+"riemann.py: _pstar_estimate_expansion"])
p("C85", "Orr-Sommerfeld operators depend only on the settings",
  "The matrices computed by an OrrSommerfeldModel depend only on n, the interval and the current base state, never on the history of earlier calls; computing them again succeeds and gives the same matrices.",
  "all pairs of histories of calls leading to the same settings", "All histories.",
  ["aerokit/stability/OrrSommerfeld.py: compute_operators, compute_BC", "aerokit/stability/_base.py: get_RHS_time_matrices"])

p("C86","Ideal work of the low pressure turbine","Wsp_TBP_ideal(P19) is the work of the isentropic expansion of the core flow from the turbine exit to P19 (positive when P19 is below the exit pressure), and thermal_efficiency divides it by the heat.","all feasible engines, all P19 > 0","Sign and factor errors need the formula, not a value.",[N+"gasgenerator.py: base.Wsp_TBP_ideal"])
p("C87","Share of the power taken by the fan","For fanpower_ratio in [0,1] a feasible turbofan computes; with 1 the core leaves without velocity at ambient pressure, with 0 it exhausts like the turbojet and the bypass flow is not worked on.","all feasible turbofans",CONT,[N+"turbofan.py: turbofan_adapt.update"])
p("C88","Propulsive efficiency at most one","propulsive_efficiency never exceeds 1 for an engine that gives kinetic energy to the gas.","all feasible turbojets",CONT,[N+"turbojet.py: propulsive_efficiency"])
p("C89","Performances reflect the last update","Calling flight_conditions without update changes no performance.","all objects, all flight conditions","Needs a history with a stale object.",[N+"gasgenerator.py", N+"turbojet.py", N+"turbofan.py"])
p("C90","The conical flow equation is Taylor-Maccoll","The derivatives (with respect to the ray angle, in degrees) integrated by conical_deflection_Mach_sigma are exactly those that mass conservation and irrotationality of the steady axisymmetric conical flow of a perfect gas impose.","all gamma > 1, all rays, all flow angles and Mach numbers for which the code computes a value",CONT,[A+"ShockWave.py: conical_deflection_Mach_sigma (rhs)"])
p("C91","Shock polar plots","Every finite point drawn by shockpolar.plot_theta_pressure / plot_theta_sigma (lines and markers) satisfies the classical shock polar relation of the flow, shifted to (thet_init, p_init); the line starts at (thet_init, p_init), its pressure increases to the normal shock; the devmax marker bounds the deviation of every point; behind the sonic marker the flow is sonic; the left curve is the mirror image of the right one; 'both' draws exactly the two.","all mach > 1, gamma > 1, npts, thet_init, p_init > 0, curve names and marker options","Universal over flows and over the number of points.",[A+"plot/shockpolar.py"])
p("C92","Isentropic polar plots","Every finite point drawn by isentropicpolar.plot_theta_pressure is the state behind an isentropic simple wave turning the flow by its deviation (C+; opposite deviation for C-); pressure is strictly monotone along the curve, equal to p_init at thet_init; over a symmetric range C- is the mirror image of C+; the devmax and sonic options have no effect.","all mach >= 1, gamma > 1, ranges, npts, curve names, any sound root finder","Universal over flows and over the number of points.",[A+"plot/isentropicpolar.py", A+"Supersonic.py: IsentropicPsratio_Mach_deflection"])
p("C93","Weak shocks and weak simple waves","As the pressure ratio tends to 1 the deviation through a shock and through an isentropic wave have the same slope sqrt(M^2-1)/(gamma M^2) in absolute value (deflection_Mach_IsentropicPsratio has the opposite sign convention), and the total pressure loss of the shock is of third order in Mn^2-1.","all M > 1, gamma > 1 (total pressure: default gamma)",CONT,[A+"ShockWave.py: deflection_Mach_ShockPsratio, Pt_ratio", A+"Supersonic.py: deflection_Mach_IsentropicPsratio"])
p("C94","Area ratio inversion of arrays","Mach_Sigma called with arrays returns, entry by entry, the Mach number with the requested area ratio on the side of the throat named by the argument Mach (which is only a selector); MachSub_Sigma / MachSup_Sigma of an array are the arrays of the scalar results.","all arrays of any length, area ratios > 1, gamma in (1,3), any root finder honouring its contract","All lengths and all mixtures of branches; tests use one branch at a time.",[A+"MassFlow.py: Mach_Sigma, MachSub_Sigma, MachSup_Sigma"])
p("C95","Error bound of the secant search","When the function is concave and monotone and the two starting points are on the same side of the root, secant_solve never overshoots: the value returned is between the starting point and the root; for a Lipschitz function the residual of the returned value is bounded by the Lipschitz constant times the last step.","all concave monotone / Lipschitz functions, all starting points","Universal over functions.",[A+"IterativeSolve.py: secant_solve"])
p("C96","Inversions by the secant search","The Mach numbers returned by old_Mach_PrandtlMeyer and Mn_Pt_ratio solve the equation: the search always returns, the residual is controlled by the last step, and (Mn_Pt_ratio, shocks from Mach 1.4985 to 6) it converges without warning to a relative error of 7e-5; old_Mach_PrandtlMeyer (air, Mach 1 to 450) converges without warning to an angle within 0.0006 degree times the Mach number; a total pressure ratio above 1 gives Mn = 1.","all targets of the stated ranges",CONT,[A+"Supersonic.py: old_Mach_PrandtlMeyer", A+"ShockWave.py: Mn_Pt_ratio"])
p("C97","Shape of the shock polar","For a given upstream Mach number the deflection is a concave function of the shock angle between the Mach angle and 90 degrees, increasing up to sigma_DevMax and decreasing beyond.","all M > 1, gamma > 1, all shock angles",CONT,[A+"ShockWave.py: deflection_Mach_sigma, sigma_DevMax"])
p("C98","Weak shock search","sigma_Mach_deflection returns the weak shock angle (up to the residual of the secant search) for any attached deflection, for positive and negative deflections and at zero deflection (Mach angle).","all M > 1, all deflections below dev_Max",CONT,[A+"ShockWave.py: sigma_Mach_deflection"])
p("C99","Refinement of an eigenpair","converge_eigenpair: once an iteration no longer changes the pair, the value is an exact eigenvalue; the value returned is the quotient of the mode returned (the residual is orthogonal to the mode); the starting mode matters only by its direction; started on an exact eigenvalue it returns the corresponding mode.","all matrices of any size, all starting pairs, any number of iterations","Universal over matrices and iteration counts.",[S+"_base.py: converge_eigenpair"])
p("C100","Eigenpairs are modes","Every pair (omega, v) returned by solve_eig gives a non-zero solution exp(-i omega t) v of At dq/dt = B q, whose amplitude is multiplied by exp(Im(omega) t); conversely such a solution is an eigenpair.","all matrices, all times, any sound generalised eigenvalue solver","Universal over matrices and times.",[S+"_base.py: solve_eig"])
p("C101","Characteristic speeds of the Euler equations","left_acoustic, u and right_acoustic are, in increasing order, exactly the characteristic speeds of the one-dimensional Euler equations; asound^2 is the derivative of the pressure along the isentrope; copying a state changes none of them.","all states rho>0, p>0, gamma>1",CONT,[A+"model1D.py: state", A+"unsteady1D.py: unsteady_state"])
p("C102","Engine performances are the momentum and energy balances","Thrust, specific thrust, kinetic power, heat, efficiencies and specific consumption of turbojet_opt and turbofan_adapt are those of the momentum and energy balances of the jets.","all feasible engines and flight conditions",CONT,[N+"turbojet.py", N+"turbofan.py"])
p("C103","First law for the whole engine","The heat released by the combustion is exactly shared between the kinetic power given to the flow, the enthalpy carried away by the jets above the ambient air and the losses of the shafts.","all feasible engines and flight conditions",CONT,[N+"gasgenerator.py", N+"turbojet.py", N+"turbofan.py"])
p("C104","Ideal turbojet has the Brayton efficiency","Without losses and with a single gas, the thermal efficiency of the turbojet is 1 - T0/Tt3 whatever the turbine entry temperature.","all lossless engines and flight conditions",CONT,[N+"turbojet.py: thermal_efficiency"])

p("C105","Optimal fan of the ideal turbofan","calculs_tau_optimum prints the temperature ratios of the flight and of the compressor, and the fan exit temperature that maximises the specific thrust of the turbofan for the given bypass ratio.","all bypass ratios, pressure ratios, turbine entry temperatures","An optimum is a statement about every alternative.",[N+"propu_be.py: calculs_tau_optimum"])
p("C106","Copies are independent","A copy of a state (copy, copysymmetric) holds the same values, and whatever is later written into the arrays of one of the two, the other keeps its values.","all array states (shared arrays included), all sequences of writes","Aliasing shows only in a later write.",[A+"model1D.py: state.copy", A+"unsteady1D.py: unsteady_state.copy, copysymmetric"])
p("C107","State behind a moving shock","Given a shock velocity, shock_downstream / _rankinehugoniot_from_ushock return the state behind the compression shock moving at that velocity; applying it again gives the original state back.","all states, all supersonic shock velocities",CONT,[A+"unsteady1D.py: shock_downstream, _rankinehugoniot_from_ushock"])
p("C108","Inverse searches on conical shocks","conical_sigma_Mach_walldeflection / conical_Mach_walldeflection_sigma return the shock angle / Mach number whose conical flow has the requested wall deflection.","all Mach numbers, deflections, shock angles for which they return",CONT,[A+"ShockWave.py: conical_sigma_Mach_walldeflection, conical_Mach_walldeflection_sigma"])

p("C109","The Riemann solution is a weak solution of the Euler equations","The profile sampled by qsol is, away from the five wave speeds, a differentiable solution of the Euler equations, and over any moving segment [a t, b t] (shocks, contact and fans inside or not) mass, momentum and energy are exactly what entered through the ends; between undisturbed points the content is the balance of the two initial states; entropy increases through shocks and is kept through expansions.","all left/right states without vacuum (also two gases), all segments, any root finder honouring its contract","Conservation over every segment is a statement about integrals of the whole profile.",[I+"riemann.py: riemann_pb, qsol"])
p("C110","RK4 is stable and of order four","Two runs of RK4 from different initial values stay within exp(L (t-x)) times their initial distance at every sample; for every smooth right-hand side the distance to the exact solution is at most K h^4 (t-x) exp(M (t-x)) at every sample, with K independent of the step, the interval and the solution; for linear systems K is explicit.","all right-hand sides (Lipschitz / four times differentiable with bounded derivatives / linear) in any normed space, all intervals, all steps, any number of steps","Convergence rates are statements about every step size.",[C+"_ode.py: RK4"])
p("C111","Algebra of the spectral derivative matrices","matder(m) is the m-th power of matder(1), zero from order n on and not before; only constants have a zero first derivative; reversing the order of the nodes multiplies matder(m) by (-1)^m; the collocation problems u' = f with one prescribed value and u'' = f with prescribed end values have exactly one solution.","all numbers of nodes, intervals, orders of derivative, right-hand sides, histories of calls on the object","All sizes; uniqueness is a statement about every candidate.",[C+"numspectral.py: ChebCollocation.matder"])
p("C112","Spectral accuracy","For a function with n derivatives, extrapol of its samples differs from it by at most 4 max|f^(n)| ((b-a)/4)^n / n! on the whole interval, and matder(m) applied to its samples differs from the m-th derivative by at most max|f^(n)| (b-a)^(n-m)/(n-m)! at the nodes; when derivatives grow at most geometrically the error tends to zero with n.","all functions, all numbers of nodes, intervals, points, orders, histories of calls","Accuracy over every function is universal.",[C+"numspectral.py: ChebCollocation.matder, extrapol"])

p("C113","Modes of the linearised Euler equations","The pairs (omega, v) of the matrices computed by Euler1D are exactly the non-zero fields whose boundary conditions hold at both ends (periodicity of values and derivatives, or walls) and which satisfy the Euler equations linearised about the base flow at every interior node; over a uniform periodic flow the eigenvalues are those of three scalar waves carried at U-c, U, U+c; between walls in a gas at rest the non-zero ones are those of the acoustic wave equation; the spectrum is symmetric (conjugation) and unchanged by the mirror image of the flow.","all base flows without zero density, all numbers of nodes, intervals, histories of calls, all complex omega and v","An equivalence over every candidate mode of every flow.",[S+"Euler.py: Euler1D", S+"_base.py"])
p("C114","Modes and symmetries of the Orr-Sommerfeld problem","The pairs (omega, v) of the matrices computed by OrrSommerfeldModel are exactly the non-zero v with v = v' = 0 at both walls satisfying the Orr-Sommerfeld equation at the inner nodes; conjugation maps alpha to -conj(alpha) and omega to -conj(omega); adding a uniform velocity U0 shifts omega by alpha U0; reversing the profile reverses the mode; for an even profile modes split into even and odd ones; changing units of length and velocity scales omega accordingly.","all profiles, alpha, Re != 0, numbers of nodes >= 4, intervals, histories of calls","An equivalence over every candidate mode of every flow.",[S+"OrrSommerfeld.py"])
p("C115","Units invariance of the Riemann problem","Multiplying the densities of the data by a, the velocities by b and the pressures by a b^2 (a change of units) multiplies the star state, the wave speeds and the whole sampled solution accordingly.","all pairs of states without vacuum, all a, b > 0, all x/t, any sound root finder",CONT,[I+"riemann.py: riemann_pb"])
p("C116","Dependence of the star state on the data","A faster left gas raises the star pressure and velocity, a faster right gas lowers the star pressure and raises the star velocity; a higher pressure on either side raises the star pressure and pushes the contact away; a denser left gas strengthens its wave's side of the balance; two identical states give the uniform flow.","all pairs of states without vacuum, any sound root finder","Monotonicity over every pair of data.",[I+"riemann.py: riemann_pb"])
p("C117","The inflow problem is well posed","For given total conditions the equation solved by solve_with_pt0_rtt0 has exactly one solution with a non-negative inlet velocity when the total pressure is at least the pressure at which the gas comes to rest; it may also have a root with a negative velocity (a spurious one); the wave is a shock or an expansion according to the pressure.","all initial states, all pt0, rtt0 > 0",CONT,[I+"unsteady_inflow.py"])
p("C118","Position of the shock in the diffuser","For each pressure ratio of the shock regime there is exactly one Mach number whose normal shock has the total pressure loss of the flow; the shock stands at its section, between throat and exit, and moves downstream as the pressure ratio increases, from the throat to the exit; set_NPR switches at the point whose choked Mach number is the closest to the one found for that loss.","all area ratios > 1, all pressure ratios of the regime, all section laws, any root finder honouring its contract",CONT,[I+"nozzle.py: Ms_from_AsAc_NPR, set_NPR"])
p("C119","Fanno and Rayleigh flows obey the equations of motion","Along a Fanno flow the ratios satisfy the momentum equation with the wall friction measured by the decrease of maxFparam_Mach, and the entropy produced is the dissipation of the friction; along a Rayleigh flow the entropy comes from the heat only, T ds = cp dTi.","all Mach numbers > 0, all gamma > 1",CONT,[A+"Fanno.py", A+"Rayleigh.py"])
p("C120","A normal shock stays on its Fanno and Rayleigh lines","The states before and after a normal shock have the same critical state for the Fanno line (mass, energy) and for the Rayleigh line (mass, momentum): the shock ratios are quotients of the line ratios; the entropy rise is the same on both lines and is that of the total pressure loss.","all upstream Mach numbers >= 1, all gamma > 1 (total pressure: default gamma)",CONT,[A+"Fanno.py", A+"Rayleigh.py", A+"ShockWave.py"])
p("C121","Mass flow and choking of the nozzle","After set_NPR the mass flow section * total pressure * WeightMassFlow(Mach) is the same at every point of the profile; it increases strictly with the pressure ratio until the throat is sonic, where it is that of the sonic flow through the smallest section, and does not change any more beyond NPR0, with or without a shock in the diffuser.","all section laws, all pressure ratios > 1 for which set_NPR returns, default gamma, any root finder honouring its contract","Universal over section laws and pressure ratios.",[I+"nozzle.py: nozzle.set_NPR", A+"MassFlow.py: WeightMassFlow"])
p("C122","Better components give more thrust","With a better inlet, compressor, turbine, shaft or nozzle, or a hotter turbine inlet, everything else being the same, the turbojet still runs, burns not less fuel, and turbine exit temperature and pressure, jet velocity and thrust do not decrease; a hotter turbine inlet strictly increases fuel, turbine exit temperature and (jet under pressure) thrust.","all feasible engines with OPR >= 1, all flight conditions",CONT,[N+"gasgenerator.py", N+"turbojet.py"])
p("C123","Similarity of the engines","Multiplying the ambient pressure changes no performance of a turbojet or turbofan; multiplying temperatures (ambient, turbine entry) and heat of combustion by l multiplies thrusts by sqrt(l), powers by l, divides the specific consumption by sqrt(l) and changes no efficiency; errors occur in the same cases.","all engines (feasible or not), all flight conditions, all positive factors",CONT,[N+"gasgenerator.py", N+"turbojet.py", N+"turbofan.py"])
p("C124","The mass flow is only a scale","Multiplying the mass flow of a turbofan cycle (both classes, both scripts) by k multiplies the thrust and the powers by k and leaves specific thrust, specific consumption, efficiencies, temperatures and fan pressure ratio unchanged, whatever the histories of calls; failures are the same.","all design parameters, gases, histories, k != 0",CONT,[N+"Cycle_Turbofan.py", N+"propu_be.py", N+"propu_be_double_corps.py"])
p("C125","Balances of the turbofan cycles","The thrust of a cycle is the momentum balance of the captured air, fuel and jets, its thermal efficiency the kinetic power over the heat release, its overall efficiency the thrust power over the heat release, its consumption the fuel flow over the thrust in the displayed unit (g/kN/s).","all design parameters and gases for which the cycle is computed",CONT,[N+"Cycle_Turbofan.py: perfo, show_perfo"])
p("C126","Figures of the parametric study","main of propu_be_double_corps shows three figures; each panel is the graph of one performance returned by calculs against one parameter (twenty evenly spaced values between the given bounds, both included), the other parameters at their base values; no value of a previous sweep remains.","all bounds","The table of results is shared and mutated by the three sweeps.",[N+"propu_be_double_corps.py: main, plot"])
p("C127","Hypersonic limits and largest deflection","As the Mach number grows without bound the density ratio, downstream Mach number, Prandtl-Meyer angle, Fanno length, Rayleigh ratios tend to their known finite limits and the pressure and temperature ratios, the section ratio and the isentropic ratios grow without bound; dev_Max increases strictly with the Mach number towards asin(1/gamma) without reaching it, so a wedge of at least that angle never has an attached shock and the search functions return their detached values.","all gamma > 1 (total pressure loss: default gas), all Mach numbers",CONT,[A+"ShockWave.py: dev_Max, Rho_ratio, downstream_Mn, Pt_ratio, weaksigma_Mach_deflection, strongsigma_Mach_deflection", A+"Supersonic.py", A+"Fanno.py", A+"Rayleigh.py", A+"MassFlow.py", A+"Isentropic.py"])
p("C128","Rounding errors of the flow functions","In any floating point arithmetic whose operations have relative error at most u <= 1/64 (no overflow or underflow), the isentropic, mass flow, normal shock, Fanno and Rayleigh functions return, and their relative error is that of at most K roundings, K u/(1 - K u), with K a small constant (5 to 25), or growing only with gamma/(gamma-1) and the logarithm of the ratio for those that contain a power; without rounding they are the exact functions.","all arithmetics (binary64 in particular), all gamma > 1, all Mach numbers (>= 1 for shocks)","Universal over roundings and inputs.",[A+"Isentropic.py", A+"MassFlow.py: WeightMassFlow, Sigma_Mach", A+"ShockWave.py: Ps_ratio, Mn_Ps_ratio, Rho_ratio, Ts_ratio, downstream_Mn, Pt_ratio", A+"Fanno.py", A+"Rayleigh.py"])
p("C129","Round trips in floating point","In floating point, Mach_TtTs(TtTs_Mach(M)), Mach_PtPs(PtPs_Mach(M)) and Mn_Ps_ratio(Ps_ratio(M)) give M back up to a few roundings.","all arithmetics, all gamma > 1, all Mach numbers","Universal over roundings and inputs.",[A+"Isentropic.py: Mach_TtTs, Mach_PtPs", A+"ShockWave.py: Mn_Ps_ratio"])
p("C130","RK4 reaches the end of its interval in floating point","In floating point (round to nearest), RK4 from x to xStop with a positive step stops after about (xStop-x)/h steps, its abscissas increase strictly, and the last one is xStop.","all arithmetics rounding to nearest, all precisions, all x, xStop, h > 0 in floating point, all right-hand sides (with any rounding)","Termination of a loop on rounded abscissas for every step; tests try a few steps.",[C+"_ode.py: RK4"])
p("C131","Order and step control of RKF45","RKF45 is a fifth-order method: for every smooth right-hand side with bounded derivatives, every run that takes no step longer than H <= 1 stays within K H^5 (t-x) exp(1.5 M (t-x)) of the exact solution at every sample, whatever the sequence of accepted and rejected steps; every sample is one Cash-Karp step with an accepted estimate from the previous one; the estimate is at most K h^5, runs always return, and no step but the last is shorter than min(h, c tol^(1/5)), so the number of samples is bounded.","all dimensions, all right-hand sides of class C5 with bounded derivatives, all exact solutions, all intervals, tolerances, initial steps","Universal over equations and step sequences; tests look at a few convergence curves.",[C+"_ode.py: RKF45, _rkf45"])
p("C132","The tolerance of RKF45 bounds the error","The error of the samples returned by RKF45 is bounded by the tolerance (times the number of steps and the amplification of the equation).","all equations, tolerances, intervals","The estimate can vanish while the error does not; only a proof separates the equations for which the tolerance is meaningful.",[C+"_ode.py: RKF45, _rkf45"])
p("C133","Gas functions of the minimum length nozzle script","pmeyer, pmeyer_prime, mach_angle and rapport_expansion of Minimum_length_nozzle.py agree with the functions of aerokit for the gas of the script (gamma = 1.27): pmeyer is the Prandtl-Meyer function in radians, pmeyer_prime its derivative, rapport_expansion the section ratio, mach_angle the Mach angle; outside their domain they fail in the same cases.","all Mach numbers",CONT,["notebooks/Minimum_length_nozzle.py: pmeyer, pmeyer_prime, mach_angle, rapport_expansion", A+"Supersonic.py: PrandtlMeyer_Mach", A+"MassFlow.py: Sigma_Mach"])
p("C134","The Newton search of the Mach number","mach_via_pmeyer terminates for every angle from 0 to the largest turning angle (plus its tolerance) and its result has the requested Prandtl-Meyer angle within 1e-5; beyond the largest turning angle the loop never ends; negative angles never give a result; between Mach 1.1 and 2.9 the Mach number itself is found within 3.4e-5.","all angles","Termination of a Newton iteration from a fixed guess over a whole interval.",["notebooks/Minimum_length_nozzle.py: mach_via_pmeyer"])
p("C135","The points of the nozzle form a net of characteristics","Whenever Minimum_length_nozzle returns, its points form the net of characteristics of the centred expansion of half the Prandtl-Meyer angle of the requested Mach number: theta+nu and theta-nu are constant along the two families, every segment has the mean characteristic direction of its ends, points of the axis have zero angle, the returned profile is the wall cancelling the reflected waves, parallel to the axis at its end, and the returned Mach number is the requested one within the tolerance.","all Mach numbers, throat areas, numbers of waves for which it returns","All sizes of the net.",["notebooks/Minimum_length_nozzle.py: Minimum_length_nozzle, point_ecoulement"])
p("C136","The minimum length nozzle is built and its wall is regular","For any supersonic Mach number, throat area and positive number of waves, Minimum_length_nozzle returns; its profile starts at the corner of the throat, goes downstream, widens, and is concave. Without waves or for a subsonic Mach number it fails.","all Mach numbers, throat areas, numbers of waves","All sizes of the net; no crossing of characteristics is an ordering of every node.",["notebooks/Minimum_length_nozzle.py: Minimum_length_nozzle"])
p("C137","Arrays handed out by ChebCollocation","The nodes (xi, x) are computed at the first access only and the same array is returned ever after; each object has its own arrays: an array obtained from one object is never used by another, so that several objects used together give the right nodes and matrices whatever is written into arrays of the others; a matrix of an order never asked before is right whatever was written before. What a caller does with an array it received does not change what the object returns later.","all numbers of objects, intervals, sizes, histories of calls and of writes into any array","Aliasing shows only in a later read, for some interleaving.",[C+"_dev.py: lazyprop", C+"numspectral.py: ChebCollocation.xi, x, matder, compute_matder"])
p("C138","The working states of the ramjet diagram are possible flows","For any flight and throat Mach numbers for which the diffuser diverges, the ramjet script draws: a conventional branch, each point of which is the flow with exactly one normal shock in the diffuser, heated to the abscissa, with a sonic nozzle throat and conserved mass; more heat moves the shock from the diffuser exit (first point) to the throat (last point) and raises the total pressure; a fully supersonic branch, from no heat to the choking of the nozzle; an unstarted branch with a subsonic throat behind a normal shock at the flight Mach number; and a restart branch with a sonic throat that joins it. The unstarted branch begins before the conventional one ends, with a lower total pressure.","all flight and throat Mach numbers, numbers of points","The existence and uniqueness of the shock position is a statement about every point of a continuous family.",["examples/ramjet-working.py: (FS), (CW), (UC), (RC)", A+"Rayleigh.py: SubMach_TiTicri, SupMach_TiTicri", A+"MassFlow.py: Mach_Sigma"])
p("C139","The area ratio searches with the algorithm of scipy","With the secant method of scipy.optimize.newton as it is (second point, 50 iterations, step tolerance 1.48e-8), MachSub_Sigma and MachSup_Sigma return for every area ratio the subsonic, respectively supersonic, Mach number within a few 1e-8, exactly 1 at the throat; Mach_Sigma from its default guess returns a Mach number of that area ratio or raises.","all area ratios >= 1, default gas","Convergence of a derivative-free iteration over a continuum of inputs; a false convergence is silent.",[A+"MassFlow.py: Mach_Sigma, MachSub_Sigma, MachSup_Sigma, __MachSub_sigma, __MachSup_sigma"])
p("C140","The Riemann problem with the algorithm of scipy","With the secant method of scipy.optimize.newton as it is (started at the code's own two-expansion estimate, rtol=1e-10, 50 iterations), the constructor of the Riemann problem succeeds for all states that leave no vacuum, and pstar is the root of the velocity jump within the tolerance (exactly, if both waves are expansions).","all pairs of states with equal gamma","Convergence of an iteration over a six-parameter family of states.",[I+"riemann.py: riemann_pb.__init__, pstar_estimate_expansion, du"])
p("C141","The Prandtl-Meyer inversion with the algorithm of scipy","With the secant method of scipy.optimize.newton as it is (start 2.0, step tolerance 1.48e-8, 50 iterations), Mach_PrandtlMeyer returns, for every angle from 0 to the largest turning angle, a Mach number of at least 1 whose angle is the requested one within 1e-6 degree (the Mach number itself with a relative error below 1e-8 above Mach 1.2); at and beyond the largest turning angle it raises; it gives no value for clearly negative angles. IsentropicPsratio_Mach_deflection inherits this.","all turning angles, all gases","Convergence of a derivative-free iteration over a continuum of inputs; the slope of the function vanishes at Mach 1 and at infinity.",[A+"Supersonic.py: Mach_PrandtlMeyer, IsentropicPsratio_Mach_deflection"])
p("C142","The shock impact model","ShockModel of the stability example gives, for every number of points, length and Mach number, a base flow of constant total pressure and temperature, slowed down linearly to rest at the wall, whose first point is the flow behind a normal shock of exactly the requested Mach number; its matrices can be computed, with one additional unknown for the shock; the relations printed at the top are the derivatives of the shock ratios; without any Mach number the constructor fails.","all numbers of points >= 2, lengths > 0, Mach numbers, gradients, memory states","Composition of collocation, isentropic and shock relations, and in-place boundary rows, for every size and Mach number.",["examples/stability/shock.py: ShockModel", S+"Euler.py: Euler1D", A+"model1D.py: compute_from_pt_rtt_u", A+"ShockWave.py: Ps_ratio, Rho_ratio, downstream_Mn"])
p("C143","Array arguments","On numpy arrays of any shape, and on any mixture of floats and arrays of one shape, every closed-form function of degree, Isentropic, MassFlow, Fanno, Rayleigh, Supersonic and ShockWave returns an array exactly when an argument is one, and each entry is what the float call returns on the corresponding entries, whatever the other entries are (NaN included). The searches based on secant_solve are so in the searched quantity and its initial guess (turning angle, deflection, cone angle) with a float Mach number.","all shapes, entries, mixtures of floats and arrays","A unit test uses one or two arrays; the claim is about every shape, every mixture and every position of an invalid entry.",[A+"degree.py", A+"Isentropic.py", A+"MassFlow.py: WeightMassFlow, Sigma_Mach", A+"Fanno.py", A+"Rayleigh.py", A+"Supersonic.py", A+"ShockWave.py", A+"IterativeSolve.py: secant_solve"])
p("C144","The inverse flow functions on arrays with the algorithm of scipy","With the vectorised secant method of scipy.optimize.newton as it is (one loop for the whole array, its own second point and stopping rule), Mach_Sigma with an array of guesses, MachSub_Sigma, MachSup_Sigma and Mach_PrandtlMeyer accept arrays: no exception is raised and every entry is solved on the side asked for, whatever the other entries are.","all shapes with at least two entries, all area ratios >= 1 and turning angles, all mixtures of subsonic and supersonic guesses","One loop and one stopping rule are shared by all entries; a test sees a few arrays.",[A+"MassFlow.py: Mach_Sigma, MachSub_Sigma, MachSup_Sigma", A+"Supersonic.py: Mach_PrandtlMeyer"])
p("C145","No growing mode over a uniform flow","Over a uniform flow with periodic conditions, and in a gas at rest between two walls, no mode of the matrices computed by Euler1D grows or decays: every eigenvalue is real, for every number of points, interval, state and Mach number. In particular for the Tube of examples/stability/euler1d.py, whose modes are the periodic waves at the speeds 100 (Mach - 1), 100 Mach and 100 (Mach + 1).","all numbers of points >= 3, intervals, uniform states, Mach numbers, complex frequencies and vectors","The spectrum of a non-symmetric matrix of every size; a test computes a few spectra in floating point.",[S+"Euler.py: Euler1D.compute_operators, setBC_per, setBC_sym", "examples/stability/euler1d.py: Tube", C+"numspectral.py: ChebCollocation.matder"])
p("C146","The validation script of the area ratio search","In validation_sigma_convergence.py the Mach numbers found by Mach_Sigma(Sigma_Mach(Mach), Mach) on the whole array are the original ones; the three expansions drawn beside Sigma_Mach are its low Mach asymptote, its second-order expansion at Mach 1 and its high Mach asymptote.","all arrays of Mach numbers of the proved domain (the 1000 points of the script in particular), all gases, all Mach numbers","Asymptotic behaviour is a limit; the round trip depends on a loop shared by all entries.",["examples/aero/validation_sigma_convergence.py", A+"MassFlow.py: Mach_Sigma, Sigma_Mach"])
p("C147","More bypass air gives more thrust","Giving the same fan power to more air, everything else being the same, leaves the core of turbofan_adapt unchanged, makes the fan flow cooler and slower, does not decrease the thrust and does not increase the specific consumption.","all feasible turbofans and flight conditions, all bypass ratios, all fan efficiencies",CONT,[N+"turbofan.py: turbofan_adapt.update, norm_thrust", N+"gasgenerator.py", N+"turbojet.py: Sfc"])
p("C148","Optimal fan power","The thrust of turbofan_adapt is a concave function of fanpower_ratio, the core jet slows down and the fan jet speeds up as it grows; with turbine and fan without losses a ratio inside ]0, 1[ is optimal if and only if the fan jet velocity is eta_shaft times the core jet velocity, and there is exactly one such ratio when the core jet without fan is fast enough.","all feasible turbofans and flight conditions, all ratios in [0, 1]","Optimality is a comparison with a continuum of designs.",[N+"turbofan.py: turbofan_adapt.update, norm_thrust"])
p("C149","The shipped scripts find what they import","Every script of the directories examples and notebooks gets through its import statements when the third-party packages are installed, whatever has been imported before in the session.","all scripts, all import histories, all environments with the packages installed","Import errors depend on what has been imported before; the scripts are not run by any test.",["examples/*.py", "examples/*/*.py", "notebooks/*.py"])
p("C150","Charts of the example scripts","Each curve of rayleigh-heating.py is drawn with finite points only: equidistant abscissas from 1 to the maximal heating ratio, the flow at abscissa x having x times the stagnation temperature of the initial flow, from the initial Mach number strictly towards Mach 1, which it reaches; the polars of shockwave-polar.py and shockwave-polar-p.py are drawn with their labels; the same loops are right for another gas.","all initial Mach numbers > 0, all numbers of points, all gases",CONT,["examples/rayleigh-heating.py", "examples/shockwave-polar.py", "examples/shockwave-polar-p.py"])
p("C151","The guide vane script","In Riemann-GuideVane.py the initial flow is the one choked by a vane of the given angle (same mass flow and total state as a sonic throat of the given pressure); the imposed final state has the same Mach number and total temperature and the given multiple of the total pressure and mass flow, and sends an expansion upstream and a shock downstream; the state of the same pressure sends two shocks; pressures and velocities between the waves are ordered accordingly.","all angles below 90 degrees, throat pressures, total pressure ratios > 1, any sound root finders",CONT,["notebooks/Riemann-GuideVane.py", A+"MassFlow.py: Mach_Sigma", I+"riemann.py", A+"Isentropic.py"])
p("C152","remove_output.py never loses a notebook","Wherever remove_output.py is interrupted (crash, power cut, exception), the complete original text of every notebook on the command line is still there, under its name or its .bak name; no other file is changed; a run that ends has replaced each notebook by its cleaned text and kept the original as .bak; a notebook that cannot be cleaned stays where it was.","all lists of names, file systems, contents, crash points, behaviours of nbformat","Crash points and file systems are not covered by tests.",["notebooks/remove_output.py: __main__"])
p("C153","remove_outputs removes outputs only","remove_outputs empties the outputs and deletes the counters of every code cell, and changes nothing else: worksheets, order, number and type of cells, sources, metadata, and all entries of other cells; cleaning again changes nothing; it fails only for a cell without a type.","all notebooks","All contents and all numbers of cells.",["notebooks/remove_output.py: remove_outputs"])
p("C154","The fan redistributes the energy of the core","The kinetic energy per unit mass of core flow delivered by the two streams of a turbofan is at most the one a turbojet with the same core parameters and flight delivers, minus the shaft loss of the fan spool, whatever the bypass ratio and the fraction of power given to the fan; with a lossless fan, low pressure turbine, inlet and nozzle it is exactly that, and with a lossless shaft too the thermal efficiencies of both engines are equal.","all feasible turbofans and flights, all bypass ratios and power fractions",CONT,[N+"turbofan.py:update",N+"turbojet.py:update",N+"gasgenerator.py:update"])
p("C155","The expansion notebook describes an exact flow","In Caract-01-expansion.ipynb, for a uniform flow at any Mach number from 1 turned by a convex corner: flow_prop returns at every point of the plane the directions of a flow with the invariant of the initial flow, uniform outside the fan, continuous at the two limiting rays, tangent to both walls, with the C+ characteristic along the ray in the fan; the flow of the fan satisfies mass conservation and irrotationality; integ draws the straight C+ rays; p1p0 is the pressure ratio of the turn; the notebook runs in a new kernel.","all Mach numbers and wall angles, all points of the plane, all starting points and numbers of steps of the characteristics",CONT,["notebooks/aero/Caract-01-expansion.ipynb:init_case",  "notebooks/aero/Caract-01-expansion.ipynb:flow_prop","notebooks/aero/Caract-01-expansion.ipynb:integ",A+"Supersonic.py:Mach_PMFmmu",A+"Supersonic.py:IsentropicPsratio_Mach_deflection"])
p("C156","The map of turbofans","examples/turbofan.py draws a map of 49 bypass ratios by 11 compressor temperatures: no entry of the arrays fails, every entry is the thrust and the overall efficiency of the engine of its row and column, thrusts are positive and efficiencies strictly between 0 and 1; for every compressor temperature of the range and bypass ratios up to 10, a larger bypass ratio gives less thrust per unit mass of air, a better overall efficiency and the same thermal efficiency, which bounds the overall one.","all entries of the map, all compressor temperatures from 252 to 800 K, all pairs of bypass ratios in ]0, 10]",CONT,["examples/turbofan.py",N+"turbofan.py: turbofan_adapt",N+"gasgenerator.py: base.update",N+"turbojet.py: turbojet_opt"])
p("C157","Better components give more thrust (turbofan)","With better components (inlet, compressor, turbines, shafts, fan, nozzle) or a hotter turbine inlet, everything else being the same, a turbofan still runs, burns not less fuel, its two jets are not slower and its thrust is not smaller; a hotter turbine inlet strictly increases fuel and thrust.","all feasible turbofans and flights, all pairs of designs of which one has no component worse than the other",CONT,[N+"turbofan.py: turbofan_adapt.update, norm_thrust",N+"gasgenerator.py: base.update"])
p("C158","The notebook classes agree with the package","The classes built in Turbofan_pyclass_design.ipynb show, for every engine, the same performances as the classes of aerokit.engine.Cycle_Turbofan that the notebook evaluates afterwards.","all gases, bypass ratios, pressure ratios, turbine temperatures, mass flows, fan settings",CONT,["notebooks/Turbofan_pyclass_design.ipynb: cycle_taux_fan_fixe.stage_9, cycle_taux_fan_calcule.stage_9, calculs_5_to_9",N+"Cycle_Turbofan.py: cycle_taux_fan_fixe, cycle_taux_fan_calcule"])
p("C159","A wedge between two shocks","In Shock-22-shock-expansion.ipynb, for a supersonic flow over a roof-shaped obstacle whose two faces are steep enough to be seen and small enough to keep the shocks attached: the cells end; each reported shock is an exact weak oblique shock whose deflection is the wall's, the Mach number used behind it is its downstream Mach number, the expansion conserves the stagnation pressure and turns the flow by the change of wall angle, and the pressure of each face is the product of the ratios upstream of it.","all Mach numbers from 1.01 to 10, wall angles, windward flows and turns (air); the notebook's own values from end to end",CONT,["notebooks/aero/Shock-22-shock-expansion.ipynb: cells 5, 6, 9, 11",A+"ShockWave.py: sigma_Mach_deflection, Ps_ratio, downstream_Mn",A+"Supersonic.py: Mach_PrandtlMeyer, IsentropicPsratio_Mach_deflection"])
p("C160","A reflected shock","In Shock-21-reflexion.ipynb and its widget version, for a supersonic flow over a ramp that supports an attached shock and an attached reflection: the cells end; each shock is an exact weak oblique shock that turns the flow by the ramp angle, so that the flow behind the reflection is parallel to the walls again; the pressure ratios multiply; the drawn shocks have the computed inclinations.","all Mach numbers from 1.01 to 10, ramp angles, heights of the drawing (air); the notebook's own values from end to end",CONT,["notebooks/aero/Shock-21-reflexion.ipynb: cells 5, 6, 8, 9","notebooks/aero/Shock-21-reflexion-widget.ipynb: plot_all",A+"ShockWave.py: sigma_Mach_deflection, Ps_ratio, downstream_Mn"])
p("C161","Simple waves along a curved wall","In Caract-02-smooth wall.ipynb: wall_angle returns the direction of the wall (exactly, away from the junctions); plot_CP draws a characteristic from every wall point of each case; on the progressive expansion the drawn characteristics never cross, on the compression neighbouring ones converge and plot_CP_focus draws each to its crossing with the next; mach returns, where its loop ends, the flow of a characteristic through the point that meets a wall point with the same flow, and the undisturbed flow upstream of the first characteristic; the characteristics of the focused compression meet in one point.","all wall points and abscissas, ramp angles, points of the plane upstream of the wave, numbers of turns of the loop; Mach 2 for the end-to-end statements",CONT,["notebooks/aero/Caract-02-smooth wall.ipynb: wall_angle, mach_wall, mach, plot_CP, plot_CP_focus, xy_intersect_rate, ywall",A+"Supersonic.py: PrandtlMeyer_Mach, Mach_PrandtlMeyer"])
p("C162","The shock tube notebook","In Riemann-Shocktube.ipynb: the cells run; the driver gas is expanded isentropically and the driven gas compressed by a shock; a weaker shock enters the helium and the interface is accelerated; the helium is brought to rest at the wall by a shock moving left; the second interaction sends shocks into both gases and the interface goes on to the right, slower; the interactions follow each other, each at the crossing of the trajectories that meet; the printed compression ratios and shock Mach numbers satisfy the shock relations; the drawn expansion consists of characteristics.","all initial pressures, temperatures and pressure ratios > 1, all sound root finders",CONT,["notebooks/aero/Riemann-Shocktube.ipynb: cells 3, 5, 7, 9, 11, 13, xt_intersect",I+"riemann.py: riemann_pb",A+"unsteady1D.py: copysymmetric",A+"model1D.py: left_acoustic, right_acoustic"])
p("C163","The nozzle regimes notebook","In Nozzle-regimes.ipynb: the contour deduced from the Mach numbers decreases to a throat at the abscissa 1, increases from it and ends at the target ratio; the limits are those of the library; the Mach numbers of the choked subsonic flow are found; the supersonic flow recovers the Mach numbers of the contour on the right branches and ends at the pressure 1/NPR1; a shock at the exit ends at 1/NPRsw; a shock in the diffuser conserves the mass flow at every section, has the exit Mach number of the library and ends at 1/NPR.","all target ratios 1 < A <= 25, all numbers of points >= 2, all shock positions in [0, 1], all complete root finders on the branch of their guess",CONT,["notebooks/aero/Nozzle-regimes.ipynb: cells 2, 4, 9, 12, 13, 15, 16, 18","aerokit/instance/nozzle.py: _NPR_Ms_list, Ms_from_AsAc_NPR",A+"MassFlow.py: Mach_Sigma, MachSub_Sigma"])
p("C164","The short nozzle notebook and the nozzle widget","In Nozzle-regimes-short.ipynb and Nozzle-widget.ipynb: the limits of the regimes are read from the library; the isentropic subsonic flow of a given throat Mach number has this Mach number as maximum and the sections of the contour; the sections of the widget are at least 1, have their minimum at the abscissa 1 and end at the requested ratio; the nozzle object built from them has the requested exit ratio, so that the limits drawn next to the profile are its own.","all target ratios 1 < A <= 25, all requested ratios > 1, all numbers of points, all throat Mach numbers in (0, 1], all complete root finders on the branch of their guess",CONT,["notebooks/aero/Nozzle-regimes-short.ipynb: cells 2, 4, 6","notebooks/aero/Nozzle-widget.ipynb: cells 2, 4","aerokit/aero/nozzle.py: star import","aerokit/instance/nozzle.py: nozzle, _NPR_Ms_list"])
p("C165","The approximations of the area function","In Sigma-approximation.ipynb: the two curves drawn next to the area function are positive and below it at every Mach number; the ratio to the first tends to 1 for small Mach numbers and to the second for large ones, with explicit bounds; the two inverses drawn from the areas give, for each Mach number, the subsonic and the supersonic Mach numbers with its area, one of which is the Mach number itself.","all gamma > 1 and all Mach numbers > 0 (curves); all arrays of positive Mach numbers and all complete root finders on the branch of their guess (inverses)",CONT,["notebooks/Sigma-approximation.ipynb: cells 1, 2","aerokit/aero/MassFlow.py: Sigma_Mach, MachSub_Sigma, MachSup_Sigma"])
p("C166","The reference flows of the inlet notebook","In aero/unsteady_inflow.ipynb: the flow rate of the final state of same Mach number is the pressure ratio times the initial one; that of the final state of same static pressure is above the initial one; the normalised curves are defined at every point.","all initial Mach numbers > 0, all total pressure ratios >= 1, all flow rates normalised",CONT,["notebooks/aero/unsteady_inflow.ipynb: cell 1","aerokit/aero/model1D.py: compute_from_pt_rtt_p, compute_from_pt_rtt_M"])
