{"id": "C01", "title": "Temperature ratio and Mach number are inverse", "statement": "For gamma>1, Mach_TtTs(TtTs_Mach(M)) returns M for every M>=0, and TtTs_Mach(Mach_TtTs(t)) returns t for every t>=1; for t<1 Mach_TtTs has no real value (NaN).", "quantifier": "all Mach >= 0, all ratios, all gamma > 1", "why_tests_cant": "The inputs range over a continuum; a test samples a few Mach numbers for gamma=1.4 and cannot exclude a wrong region.", "anchors": ["aerokit/aero/Isentropic.py: TtTs_Mach, Mach_TtTs"]}
{"id": "C02", "title": "Pressure ratio and Mach number are inverse", "statement": "For gamma>1, Mach_PtPs(PtPs_Mach(M)) returns M for every M>=0, PtPs_Mach(Mach_PtPs(p)) returns p for every p>=1, and for 0<p<1 Mach_PtPs has no real value.", "quantifier": "all Mach >= 0, all ratios, all gamma > 1", "why_tests_cant": "The inputs range over a continuum; a test samples a few Mach numbers for gamma=1.4 and cannot exclude a wrong region.", "anchors": ["aerokit/aero/Isentropic.py: PtPs_Mach, Mach_PtPs"]}
{"id": "C03", "title": "Isentropic law and monotonicity", "statement": "For gamma>1, PtPs = TtTs^(gamma/(gamma-1)); both ratios are >= 1, equal 1 only at M=0, and strictly increase with M on [0,inf).", "quantifier": "all Mach, all gamma > 1", "why_tests_cant": "The inputs range over a continuum; a test samples a few Mach numbers for gamma=1.4 and cannot exclude a wrong region.", "anchors": ["aerokit/aero/Isentropic.py: TtTs_Mach, PtPs_Mach"]}
{"id": "C04", "title": "Velocity conserves total enthalpy", "statement": "The velocity V=Velocity_MachTt(M,Tt,r,gamma) satisfies cp*Ts + V^2/2 = cp*Tt with Ts = Tt/TtTs_Mach(M) and V = M*sqrt(gamma*r*Ts).", "quantifier": "all M, Tt>=0, r>0, gamma>1", "why_tests_cant": "The inputs range over a continuum; a test samples a few Mach numbers for gamma=1.4 and cannot exclude a wrong region.", "anchors": ["aerokit/aero/Isentropic.py: Velocity_MachTt"]}
{"id": "C05", "title": "Sigma is the mass-flow ratio", "statement": "Sigma_Mach(M) = WeightMassFlow(1)/WeightMassFlow(M), whatever r is passed.", "quantifier": "all M>0, all r, all gamma>1", "why_tests_cant": "The inputs range over a continuum; a test samples a few Mach numbers for gamma=1.4 and cannot exclude a wrong region.", "anchors": ["aerokit/aero/MassFlow.py: Sigma_Mach, WeightMassFlow"]}
{"id": "C06", "title": "Sigma has its only minimum at the throat", "statement": "Sigma_Mach >= 1 for M>0, = 1 only at M=1, strictly decreasing on (0,1] and strictly increasing on [1,inf).", "quantifier": "all M>0, all gamma>1", "why_tests_cant": "The inputs range over a continuum; a test samples a few Mach numbers for gamma=1.4 and cannot exclude a wrong region.", "anchors": ["aerokit/aero/MassFlow.py: Sigma_Mach"]}
{"id": "C07", "title": "Area ratio inversion is well posed", "statement": "For every sigma>1 exactly one subsonic and exactly one supersonic Mach number have Sigma_Mach(M)=sigma; MachSub_Sigma/MachSup_Sigma return one of them whenever the root finder converges, and the one on its own branch when the iterate stays on that branch; so Mach -> Sigma -> Mach is the identity on each branch.", "quantifier": "all sigma>=1, all gamma in (1,3), every root finder whose returned value is a root", "why_tests_cant": "The inputs range over a continuum; a test samples a few Mach numbers for gamma=1.4 and cannot exclude a wrong region. The number of roots is not observable by evaluating the function.", "anchors": ["aerokit/aero/MassFlow.py: MachSub_Sigma, MachSup_Sigma, Mach_Sigma"]}
{"id": "C08", "title": "Initial guesses lie on the right branch", "statement": "The initial Mach given to the root finder is <=1 for MachSub_Sigma and >=1 for MachSup_Sigma for every sigma>=1 and 1<gamma<3; the subsonic guess is a positive Mach number.", "quantifier": "all sigma>=1, all 1<gamma<3", "why_tests_cant": "The subsonic guess silently becomes negative for gamma>1.4; only a proof over gamma shows where.", "anchors": ["aerokit/aero/MassFlow.py: __MachSub_sigma, __MachSup_sigma"]}
{"id": "C09", "title": "Normal shock satisfies the Rankine-Hugoniot equations", "statement": "Ps_ratio, Rho_ratio, Ts_ratio, downstream_Mn computed from one upstream Mach number conserve mass, momentum and total enthalpy across the shock.", "quantifier": "all upstream states (rho,p>0) and Mn>=1, all gamma>1", "why_tests_cant": "The inputs range over a continuum; a test samples a few Mach numbers for gamma=1.4 and cannot exclude a wrong region.", "anchors": ["aerokit/aero/ShockWave.py: Ps_ratio, Rho_ratio, Ts_ratio, downstream_Mn"]}
{"id": "C10", "title": "Shock strength inversion", "statement": "Mn_Ps_ratio(Ps_ratio(M)) = M for M>=0 and Ps_ratio(Mn_Ps_ratio(p)) = p for every p reachable by the radicand; outside there is no real value.", "quantifier": "all M>=0, all p, all gamma>1", "why_tests_cant": "The inputs range over a continuum; a test samples a few Mach numbers for gamma=1.4 and cannot exclude a wrong region.", "anchors": ["aerokit/aero/ShockWave.py: Ps_ratio, Mn_Ps_ratio"]}
{"id": "C11", "title": "Downstream normal Mach number is an involution exchanging sub and supersonic", "statement": "downstream_Mn(downstream_Mn(M)) = M on M^2 > (gamma-1)/(2 gamma); downstream <1 iff upstream >1; strictly decreasing.", "quantifier": "all M with M^2>(gamma-1)/(2gamma), all gamma>1", "why_tests_cant": "The inputs range over a continuum; a test samples a few Mach numbers for gamma=1.4 and cannot exclude a wrong region.", "anchors": ["aerokit/aero/ShockWave.py: downstream_Mn"]}
{"id": "C12", "title": "Second law through a shock", "statement": "Pt_ratio(Mn, gamma) <= 1 for Mn>=1 with equality only at Mn=1, and it equals Ps_ratio*PtPs(M2,gamma)/PtPs(Mn,gamma).", "quantifier": "all Mn>=1, all gamma>1", "why_tests_cant": "Holds at gamma=1.4 (all tests) and fails elsewhere because gamma is not forwarded.", "anchors": ["aerokit/aero/ShockWave.py: Pt_ratio"]}
{"id": "C13", "title": "Shock ratios are ordered and bounded", "statement": "For Mn>=1: Ps_ratio>=1, 1<=Rho_ratio<(gamma+1)/(gamma-1), Ts_ratio>=1, all strictly increasing.", "quantifier": "all Mn>=1, all gamma>1", "why_tests_cant": "The inputs range over a continuum; a test samples a few Mach numbers for gamma=1.4 and cannot exclude a wrong region.", "anchors": ["aerokit/aero/ShockWave.py: Ps_ratio, Rho_ratio, Ts_ratio"]}
{"id": "C14", "title": "Oblique shock deflection relation", "statement": "deflection_Mach_sigma(M,sigma) is the theta of the theta-beta-M relation: tan(sigma-theta)*Rho_ratio = tan(sigma); it is 0 at the Mach angle, positive strictly between the Mach angle and 90 degrees, negative below.", "quantifier": "all M>1, all sigma in (0,90) degrees, all gamma>1", "why_tests_cant": "The inputs range over a continuum; a test samples a few Mach numbers for gamma=1.4 and cannot exclude a wrong region.", "anchors": ["aerokit/aero/ShockWave.py: deflection_Mach_sigma"]}
{"id": "C15", "title": "Closed form weak/strong shock angles solve the shock polar", "statement": "When the cubic has a solution, weaksigma and strongsigma return angles in (0,90) whose deflection is exactly the requested deflection, and weak <= strong.", "quantifier": "all M>1, deflection in (0,90), gamma>1 with non-positive discriminant", "why_tests_cant": "The trigonometric cubic solution selects roots by branch of arccos; only a proof shows no parameter picks a wrong root.", "anchors": ["aerokit/aero/ShockWave.py: weaksigma_Mach_deflection, strongsigma_Mach_deflection"]}
{"id": "C16", "title": "sigma_Sonic gives a sonic downstream flow", "statement": "For M>=1 the angle sigma_Sonic(M) yields a downstream Mach number equal to 1.", "quantifier": "all M>=1, all gamma>1", "why_tests_cant": "The inputs range over a continuum; a test samples a few Mach numbers for gamma=1.4 and cannot exclude a wrong region.", "anchors": ["aerokit/aero/ShockWave.py: sigma_Sonic, dev_Sonic"]}
{"id": "C17", "title": "sigma_DevMax maximises the deflection", "statement": "dev_Max(M) >= deflection_Mach_sigma(M,sigma) for every sigma between the Mach angle and 90 degrees, with equality only at sigma_DevMax(M).", "quantifier": "all M>1, all sigma, all gamma>1", "why_tests_cant": "A maximum over a continuum of shock angles cannot be tested.", "anchors": ["aerokit/aero/ShockWave.py: sigma_DevMax, dev_Max"]}
{"id": "C18", "title": "Downstream Mach number of an oblique shock", "statement": "downstreamMach_Mach_ShockPsratio conserves total enthalpy and tangential velocity across the oblique shock.", "quantifier": "all M>1, pressure ratios in [1, Ps_ratio(M)), gamma>1", "why_tests_cant": "The inputs range over a continuum; a test samples a few Mach numbers for gamma=1.4 and cannot exclude a wrong region.", "anchors": ["aerokit/aero/ShockWave.py: downstreamMach_Mach_ShockPsratio"]}
{"id": "C19", "title": "Prandtl-Meyer function", "statement": "PrandtlMeyer_Mach is 0 at M=1, strictly increasing on [1,inf), below 90*(sqrt((g+1)/(g-1))-1) degrees, and undefined (NaN) for |M|<1.", "quantifier": "all M>=1, all gamma>1", "why_tests_cant": "The inputs range over a continuum; a test samples a few Mach numbers for gamma=1.4 and cannot exclude a wrong region.", "anchors": ["aerokit/aero/Supersonic.py: PrandtlMeyer_Mach"]}
{"id": "C20", "title": "Mach_PMFmmu inverts omega-mu", "statement": "Mach_PMFmmu(omega(M)-mu(M)) = M where mu=asin(1/M) in degrees.", "quantifier": "all M>1 (and M=1), all gamma>1", "why_tests_cant": "The inputs range over a continuum; a test samples a few Mach numbers for gamma=1.4 and cannot exclude a wrong region.", "anchors": ["aerokit/aero/Supersonic.py: Mach_PMFmmu"]}
{"id": "C21", "title": "Simple-wave deflection and pressure ratio are inverse", "statement": "IsentropicPsratio_Mach_deflection(M,d) = p implies deflection_Mach_IsentropicPsratio(M,p) = -d up to the code's sign convention, and Mach_PrandtlMeyer(PrandtlMeyer_Mach(M)) = M.", "quantifier": "all M>=1, all deflections keeping the flow supersonic, all gamma>1, any root finder returning a supersonic root", "why_tests_cant": "The inputs range over a continuum; a test samples a few Mach numbers for gamma=1.4 and cannot exclude a wrong region.", "anchors": ["aerokit/aero/Supersonic.py: deflection_Mach_IsentropicPsratio, IsentropicPsratio_Mach_deflection, Mach_PrandtlMeyer"]}
{"id": "C22", "title": "Fanno ratios are mutually consistent", "statement": "The Fanno ratios to the critical state satisfy perfect gas law p=rho T, constant mass flow rho V=1, V=M sqrt(T), constant total temperature, Pi = p*PtPs(M)/PtPs(1), entropy = log of total pressure, and all are 1 at M=1.", "quantifier": "all M>0, all gamma>1", "why_tests_cant": "The inputs range over a continuum; a test samples a few Mach numbers for gamma=1.4 and cannot exclude a wrong region.", "anchors": ["aerokit/aero/Fanno.py"]}
{"id": "C23", "title": "Fanno choking", "statement": "maxFparam_Mach >=0 with equality only at M=1, strictly decreasing on (0,1], strictly increasing on [1,inf); NormdS <= 0 with equality only at M=1.", "quantifier": "all M>0, all gamma>1", "why_tests_cant": "The inputs range over a continuum; a test samples a few Mach numbers for gamma=1.4 and cannot exclude a wrong region.", "anchors": ["aerokit/aero/Fanno.py: maxFparam_Mach, NormdS, Pi_Picri"]}
{"id": "C24", "title": "Rayleigh ratios are mutually consistent", "statement": "Rayleigh ratios satisfy p=rho T, rho V=1, p(1+gamma M^2) constant (momentum), V=M sqrt(T), Ti=T*TtTs(M)/TtTs(1), Pi=p*PtPs(M)/PtPs(1), entropy from T and p, all 1 at M=1.", "quantifier": "all M>0, all gamma>1", "why_tests_cant": "The inputs range over a continuum; a test samples a few Mach numbers for gamma=1.4 and cannot exclude a wrong region.", "anchors": ["aerokit/aero/Rayleigh.py"]}
{"id": "C25", "title": "Rayleigh choking", "statement": "Ti_Ticri <= 1 with equality only at M=1, strictly increasing below and decreasing above M=1; NormdS <= 0 with equality only at M=1; static temperature peaks at M=1/sqrt(gamma).", "quantifier": "all M>0, all gamma>1", "why_tests_cant": "The inputs range over a continuum; a test samples a few Mach numbers for gamma=1.4 and cannot exclude a wrong region.", "anchors": ["aerokit/aero/Rayleigh.py: Ti_Ticri, NormdS, Ts_Tscri"]}
{"id": "C26", "title": "Rayleigh inversions", "statement": "SubMach_TiTicri and SupMach_TiTicri return the unique subsonic resp. supersonic Mach number with the given Ti/Ti_cri and are left inverses on their branch; SupMach has no value at or below the asymptotic ratio 1-1/gamma^2.", "quantifier": "all ratios in their range, all gamma>1", "why_tests_cant": "The inputs range over a continuum; a test samples a few Mach numbers for gamma=1.4 and cannot exclude a wrong region.", "anchors": ["aerokit/aero/Rayleigh.py: SubMach_TiTicri, SupMach_TiTicri"]}
{"id": "C27", "title": "Maximum heating ratio honours gamma", "statement": "maxTiratio_Mach(M,gamma)*Ti_Ticri(M,gamma) = 1.", "quantifier": "all M>0, all gamma>1", "why_tests_cant": "The committed test pins the wrong value for gamma=1.3; the code ignores gamma.", "anchors": ["aerokit/aero/Rayleigh.py: maxTiratio_Mach"]}
{"id": "C28", "title": "secant_solve terminates and solves", "statement": "secant_solve evaluates f at most 20 times; on an affine f it returns the exact solution for a non-zero start that is large enough; when it stops without warning the last two iterates are within tolerance.", "quantifier": "all functions f, targets y, starting points x, tolerances", "why_tests_cant": "Histories of iterates of an arbitrary f.", "anchors": ["aerokit/aero/IterativeSolve.py: secant_solve"]}
{"id": "C29", "title": "secant_solve with a small starting point", "statement": "A starting point with |x| <= 0.01 (default tol) must not make secant_solve return without iterating.", "quantifier": "all f, y and all |x|<=0.01", "why_tests_cant": "The silent no-op depends on the start only and happens for every f; tests never start near 0.", "anchors": ["aerokit/aero/IterativeSolve.py: secant_solve"]}
{"id": "C30", "title": "RK4 stops exactly at xStop", "statement": "For h>0 RK4 terminates after ceil((xStop-x)/h) steps, X is strictly increasing from x to exactly xStop, len(X)=len(Y), no step exceeds h; for h<=0 and x<xStop it never terminates.", "quantifier": "all F, x, y, xStop, h", "why_tests_cant": "Termination and the exact end point are quantified over all step sizes.", "anchors": ["aerokit/common/_ode.py: RK4"]}
{"id": "C31", "title": "RK4 order", "statement": "One RK4 step integrates every right-hand side that is a cubic polynomial in x exactly and reproduces the Taylor expansion of the linear ODE y'=ky up to h^4.", "quantifier": "all polynomials of degree <=3, all k, x, y, h", "why_tests_cant": "The inputs range over a continuum; a test samples a few Mach numbers for gamma=1.4 and cannot exclude a wrong region.", "anchors": ["aerokit/common/_ode.py: RK4"]}
{"id": "C32", "title": "Embedded Cash-Karp step", "statement": "_rkf45 integrates polynomial right-hand sides of degree <=4 exactly, reports zero error for degree <=3, and reproduces the Taylor expansion of linear ODEs to h^5.", "quantifier": "all polynomials, all linear ODEs, all h", "why_tests_cant": "The inputs range over a continuum; a test samples a few Mach numbers for gamma=1.4 and cannot exclude a wrong region.", "anchors": ["aerokit/common/_ode.py: _rkf45"]}
{"id": "C33", "title": "RKF45 reaches xStop", "statement": "The last sample of RKF45 is at xStop whenever it stops before its iteration budget.", "quantifier": "all F, xStop, h, tol", "why_tests_cant": "The premature stop needs a rejected last step after the stop flag was raised: a history property.", "anchors": ["aerokit/common/_ode.py: RKF45"]}
{"id": "C34", "title": "defaultgas is a pair of registers with one save slot", "statement": "After any history of set/save/restore calls, gamma() and r_ideal() return the value of the last set or restore, restore gives the values at the last save (NameError if none).", "quantifier": "all call histories", "why_tests_cant": "Unbounded histories.", "anchors": ["aerokit/common/defaultgas.py"]}
{"id": "C35", "title": "set_gamma changes the default gamma of the flow functions", "statement": "After defaultgas.set_gamma(g), functions called without gamma use g (documented in the module docstrings).", "quantifier": "all import/call histories", "why_tests_cant": "Import-time binding of defaults: depends on the order of imports and calls.", "anchors": ["aerokit/common/defaultgas.py", "aerokit/aero/Isentropic.py", "aerokit/aero/ShockWave.py"]}
{"id": "C36", "title": "dicoVar behaves as a map with guarded insertion/update", "statement": "For any history, get/call/getitem agree and return the last value written; addVar refuses existing and setVar refuses missing variables with ValueError and no change.", "quantifier": "all histories of addVar/setVar/get/setDicoVar", "why_tests_cant": "Unbounded histories.", "anchors": ["aerokit/common/dicovar.py: _DicoVar"]}
{"id": "C37", "title": "User edits never leak into the built-in databases", "statement": "setDicoVar always restarts from the pristine database, whatever addVar/setVar calls happened before (deep copy isolation).", "quantifier": "all histories", "why_tests_cant": "Aliasing over unbounded histories.", "anchors": ["aerokit/common/dicovar.py: _DicoVar.__init__"]}
{"id": "C38", "title": "A failed setDicoVar keeps the current database", "statement": "setDicoVar(unknown) raises ValueError and leaves the current denominations usable.", "quantifier": "all histories, all unknown names", "why_tests_cant": "Crash point inside __init__ after the dictionary was cleared.", "anchors": ["aerokit/common/dicovar.py: setDicoVar, _DicoVar.__init__"]}
{"id": "C39", "title": "Variable names are case-insensitive", "statement": "dv['U_avg'] is equivalent to dv['u_avg'] (module documentation); software names are matched case-insensitively.", "quantifier": "all names", "why_tests_cant": "Universal over names.", "anchors": ["aerokit/common/dicovar.py"]}
{"id": "C40", "title": "Chebyshev nodes and affine map", "statement": "x is strictly increasing from exactly xmin to exactly xmax; _x_to_xi and _xi_to_x are inverse.", "quantifier": "all npts>=2, all xmin<xmax", "why_tests_cant": "All sizes.", "anchors": ["aerokit/common/numspectral.py: ChebCollocation"]}
{"id": "C41", "title": "Differentiation matrices are exact on polynomials", "statement": "matder(m) applied to the nodal values of any polynomial of degree < npts gives the nodal values of its m-th derivative.", "quantifier": "all npts>=2, all orders m>=1, all polynomials of degree<npts, all intervals", "why_tests_cant": "All sizes, orders and polynomials; tests use one n and one function with a tolerance.", "anchors": ["aerokit/common/numspectral.py: matder, compute_matder"]}
{"id": "C42", "title": "matder is history independent", "statement": "The matrix returned by matder(m) does not depend on which orders were requested before, and cached attributes (x, xi) are computed once.", "quantifier": "all histories of matder/x/xi calls", "why_tests_cant": "Unbounded histories of cached calls.", "anchors": ["aerokit/common/numspectral.py: matder", "aerokit/common/_dev.py: lazyprop"]}
{"id": "C43", "title": "extrapol and fit_to_gauss are exact on polynomials", "statement": "extrapol(f(x_k), x) = f(x) and fit_to_gauss(x, f(x)) = f(x_k) for every polynomial f of degree < npts (at least npts distinct fit points).", "quantifier": "all npts>=2, polynomials, points, intervals", "why_tests_cant": "All sizes.", "anchors": ["aerokit/common/numspectral.py: extrapol, fit_to_gauss"]}
{"id": "C44", "title": "Operators follow the base state", "statement": "After set_basestate the matrices used by solve_eig/converge_eigenpair correspond to the current base state and boundary conditions.", "quantifier": "all histories of set_basestate/set_BC/get_RHS_time_matrices", "why_tests_cant": "Stale cache: needs a history in which the state changes after the first solve.", "anchors": ["aerokit/stability/_base.py: LinOperator.get_RHS_time_matrices, set_basestate"]}
{"id": "C45", "title": "Boundary condition names are validated", "statement": "set_BC accepts exactly the registered names (string or dict) and otherwise raises ValueError (KeyError for a dict without type) leaving the previous boundary conditions in place.", "quantifier": "all arguments, all histories", "why_tests_cant": "Universal over arguments.", "anchors": ["aerokit/stability/_base.py: set_BC, _check_BC"]}
{"id": "C46", "title": "Euler1D operator is the linearised Euler equation", "statement": "-B (before boundary rows) is the exact Jacobian of the collocated nonlinear 1D Euler equations at the base state; on a uniform base state it is the constant-coefficient operator.", "quantifier": "all npts, base states with rho != 0, perturbations", "why_tests_cant": "All sizes and all base states.", "anchors": ["aerokit/stability/Euler.py: compute_operators"]}
{"id": "C47", "title": "Euler1D boundary rows", "statement": "Periodic rows hold iff value and first derivative match at both ends for each variable; symmetry rows hold iff u=0 and rho,p derivatives vanish at the boundary; interior rows are untouched.", "quantifier": "all npts, all vectors", "why_tests_cant": "All sizes.", "anchors": ["aerokit/stability/Euler.py: setBC_per, setBC_sym"]}
{"id": "C48", "title": "Euler1D operators can be recomputed", "statement": "Calling compute_operators again (or giving the same BC dict for both sides) succeeds and gives the same matrices.", "quantifier": "all histories of compute_operators", "why_tests_cant": "compute_BC pops the 'type' key: the second call is what fails.", "anchors": ["aerokit/stability/Euler.py: compute_BC"]}
{"id": "C49", "title": "Rankine-Hugoniot boundary on either side", "statement": "set_BC accepts RH on the left or on the right boundary and compute_operators succeeds.", "quantifier": "all npts, both sides", "why_tests_cant": "Row index arithmetic for every n.", "anchors": ["aerokit/stability/Euler.py: setBC_RH, compute_BC"]}
{"id": "C50", "title": "Orr-Sommerfeld operator", "statement": "On polynomial perturbations of degree < n and polynomial base profile, interior rows of At and B are the Orr-Sommerfeld operators; wall rows impose v=v'=0 at both ends.", "quantifier": "all n>=4, alpha, Reynolds != 0, profiles and perturbations", "why_tests_cant": "All sizes and parameters.", "anchors": ["aerokit/stability/OrrSommerfeld.py: compute_operators, setBC_wall"]}
{"id": "C51", "title": "Orr-Sommerfeld base state validation", "statement": "set_basestate raises DictKeyError iff one of alpha, Reynolds, uprofile is missing, and then leaves the previous base state in place.", "quantifier": "all dictionaries, all histories", "why_tests_cant": "Universal over dictionaries.", "anchors": ["aerokit/stability/OrrSommerfeld.py: set_basestate"]}
{"id": "C52", "title": "Eigenvalue selection and sorting", "statement": "select_and_sort returns exactly the eigenvalues in the half-open/open box with their eigenvectors, and order sorts them (real ascending or imaginary descending).", "quantifier": "all eigenvalue lists, all bounds", "why_tests_cant": "All sizes.", "anchors": ["aerokit/stability/_base.py: select_and_sort"]}
{"id": "C53", "title": "Rayleigh quotient convergence keeps a unit eigenvector", "statement": "converge_eigenpair returns a unit-norm mode; an exact eigenpair is returned unchanged (up to normalisation).", "quantifier": "all operators, all starting pairs, all niter", "why_tests_cant": "All sizes and iterates.", "anchors": ["aerokit/stability/_base.py: converge_eigenpair"]}
{"id": "C54", "title": "State constructors reproduce their inputs", "statement": "compute_from_pt_rtt_M / _u / _p produce a state whose Ptot, rTtot and Mach/velocity/pressure are the given ones.", "quantifier": "all pt,rtt>0, M/u/p in range, all gamma>1", "why_tests_cant": "The state forgets gamma: true at gamma=1.4 (all tests) only.", "anchors": ["aerokit/aero/model1D.py: compute_from_pt_rtt_M, compute_from_pt_rtt_u, compute_from_pt_rtt_p"]}
{"id": "C55", "title": "Rankine-Hugoniot state", "statement": "state_RH conserves mass flow, momentum flux and total enthalpy, keeps gamma, and applying it twice returns the original state.", "quantifier": "all states with rho,p>0, u with M^2>(gamma-1)/(2gamma)", "why_tests_cant": "The inputs range over a continuum; a test samples a few Mach numbers for gamma=1.4 and cannot exclude a wrong region.", "anchors": ["aerokit/aero/model1D.py: state_RH"]}
{"id": "C56", "title": "Isentropic state change", "statement": "state_isentropic_Mach keeps total pressure, total temperature and gamma.", "quantifier": "all states, all target Mach numbers", "why_tests_cant": "The defect cancels when Ptot=rTtot.", "anchors": ["aerokit/aero/model1D.py: state_isentropic_Mach"]}
{"id": "C57", "title": "Unsteady shock relations", "statement": "delta_u_shock and rho_through_shock are the Hugoniot of a moving shock: with the shock speed given by mass conservation, momentum and energy are conserved; they agree with _rankinehugoniot_from_ushock.", "quantifier": "all states, all p>p0, all gamma>1", "why_tests_cant": "The inputs range over a continuum; a test samples a few Mach numbers for gamma=1.4 and cannot exclude a wrong region.", "anchors": ["aerokit/aero/unsteady1D.py: delta_u_shock, rho_through_shock, _rankinehugoniot_from_ushock"]}
{"id": "C58", "title": "Unsteady expansion relations", "statement": "delta_u_expansion and rho_through_isentropic keep the entropy and the Riemann invariant u +- 2a/(gamma-1).", "quantifier": "all states, all p>0, all gamma>1", "why_tests_cant": "The inputs range over a continuum; a test samples a few Mach numbers for gamma=1.4 and cannot exclude a wrong region.", "anchors": ["aerokit/aero/unsteady1D.py: delta_u_expansion, rho_through_isentropic"]}
{"id": "C59", "title": "Riemann problem is well posed", "statement": "The velocity-jump function of the Riemann problem is continuous and strictly increasing in p; it has a unique root iff no vacuum is created; pstar/ustar are that root and ustar is the common star velocity from both sides.", "quantifier": "all left/right states, all gammas", "why_tests_cant": "Uniqueness over a continuum.", "anchors": ["aerokit/instance/riemann.py: _solve, _delta_uL, _delta_uR, _ustar_from_pstar"]}
{"id": "C60", "title": "Riemann wave speeds are ordered", "statement": "waves[0] <= waves[1] <= waves[2] <= waves[3] <= waves[4]; shocks are faster than the acoustic speed ahead (Lax).", "quantifier": "all left/right states without vacuum", "why_tests_cant": "The inputs range over a continuum; a test samples a few Mach numbers for gamma=1.4 and cannot exclude a wrong region.", "anchors": ["aerokit/instance/riemann.py: riemann_pb.__init__"]}
{"id": "C61", "title": "Riemann solution is self-similar piecewise", "statement": "qsol returns qL left of the left wave, the star states on each side of the contact, qR right of the right wave, and the isentropic fan inside expansions.", "quantifier": "all states, all x/t values", "why_tests_cant": "The value exactly on the foot of a right expansion is wrong; every x/t must be considered.", "anchors": ["aerokit/instance/riemann.py: qsol"]}
{"id": "C62", "title": "Riemann symmetry and Galilean invariance", "statement": "Mirroring the data mirrors the solution; adding a constant velocity shifts all wave speeds and velocities by it.", "quantifier": "all states, all shifts", "why_tests_cant": "The inputs range over a continuum; a test samples a few Mach numbers for gamma=1.4 and cannot exclude a wrong region.", "anchors": ["aerokit/instance/riemann.py: riemann_pb"]}
{"id": "C63", "title": "Double expansion estimate is exact", "statement": "When both waves are expansions and gammas are equal, _pstar_estimate_expansion is the exact star pressure.", "quantifier": "all such states", "why_tests_cant": "The inputs range over a continuum; a test samples a few Mach numbers for gamma=1.4 and cannot exclude a wrong region.", "anchors": ["aerokit/instance/riemann.py: _pstar_estimate_expansion"]}
{"id": "C64", "title": "Inflow problem", "statement": "solve_with_pt0_rtt0 gives a left star state with total conditions (pt0, rtt0), and equal pressure and velocity on both sides of the contact; right_fastest/left_fastest are available.", "quantifier": "all initial states, pt0, rtt0", "why_tests_cant": "The inputs range over a continuum; a test samples a few Mach numbers for gamma=1.4 and cannot exclude a wrong region.", "anchors": ["aerokit/instance/unsteady_inflow.py"]}
{"id": "C65", "title": "Nozzle pressure ratios are ordered", "statement": "1 < NPR0 < NPRsw < NPR1 for every area ratio > 1.", "quantifier": "all As/Ac > 1", "why_tests_cant": "The inputs range over a continuum; a test samples a few Mach numbers for gamma=1.4 and cannot exclude a wrong region.", "anchors": ["aerokit/instance/nozzle.py: NPR_choked_subsonic, NPR_shock_at_exit, NPR_choked_supersonic"]}
{"id": "C66", "title": "Exit Mach number conserves mass through the shock", "statement": "In the shock-in-diffuser regime the returned exit Mach number conserves mass flow between throat and exit, and the three regimes connect continuously at NPR0 and NPRsw.", "quantifier": "all As/Ac>1, all NPR", "why_tests_cant": "The inputs range over a continuum; a test samples a few Mach numbers for gamma=1.4 and cannot exclude a wrong region.", "anchors": ["aerokit/instance/nozzle.py: Ms_from_AsAc_NPR, Madapt_from_AsAc_NPR"]}
{"id": "C67", "title": "Nozzle object honours its gamma argument", "statement": "A nozzle built with gamma has regime limits and profiles computed with that gamma.", "quantifier": "all gamma, all section laws", "why_tests_cant": "All tests use gamma=1.4.", "anchors": ["aerokit/instance/nozzle.py: nozzle.__init__, set_NPR"]}
{"id": "C68", "title": "Building a nozzle has no side effect on the default gas", "statement": "defaultgas state (current and saved values) is the same before and after building a nozzle.", "quantifier": "all histories", "why_tests_cant": "The saved slot is overwritten: visible only in a save/nozzle/restore history.", "anchors": ["aerokit/instance/nozzle.py: nozzle.__init__", "aerokit/common/defaultgas.py"]}
{"id": "C69", "title": "Nozzle profiles", "statement": "set_NPR gives arrays of the length of the section law; Ptot is 1 upstream and the loss downstream of the shock; Ps = Ptot/PtPs(Mach); each point has the local area ratio; throat index is the first minimum.", "quantifier": "all section laws, all NPR", "why_tests_cant": "All array lengths.", "anchors": ["aerokit/instance/nozzle.py: set_NPR"]}
{"id": "C70", "title": "Gas generator energy balances", "statement": "far balances the combustion energy with efficiency eta_cc, and turbine power times shaft efficiency equals compressor power.", "quantifier": "all parameters", "why_tests_cant": "The combustion efficiency argument is silently dropped.", "anchors": ["aerokit/engine/gasgenerator.py: base.update"]}
{"id": "C71", "title": "Turbojet and turbofan performances", "statement": "thermoprop = thermal*propulsive efficiency; ideal turbojet exhaust is adapted; turbofan fan power equals the turbine power delivered; all constructor arguments are used.", "quantifier": "all parameters", "why_tests_cant": "xi_nozzle of the turbofan is silently dropped.", "anchors": ["aerokit/engine/turbojet.py", "aerokit/engine/turbofan.py"]}
{"id": "C72", "title": "Cycle stages can be run in any order", "statement": "For any history of stage calls on a cycle object, completed stages hold exactly the values of the straight-line computation, and calculs_5_to_9 completes from any reachable state; show_perfo never raises.", "quantifier": "all histories of method calls", "why_tests_cant": "Unbounded histories of a stage machine.", "anchors": ["aerokit/engine/Cycle_Turbofan.py"]}
{"id": "C73", "title": "Class and script versions of the turbofan cycle agree", "statement": "cycle_taux_fan_calcule gives the same performances as propu_be_double_corps.calculs, and cycle_taux_fan_fixe the same as propu_be.calculs.", "quantifier": "all design parameters", "why_tests_cant": "The inputs range over a continuum; a test samples a few Mach numbers for gamma=1.4 and cannot exclude a wrong region.", "anchors": ["aerokit/engine/Cycle_Turbofan.py", "aerokit/engine/propu_be.py", "aerokit/engine/propu_be_double_corps.py"]}
{"id": "C74", "title": "Real gas and kerosene tables are thermodynamically consistent", "statement": "Cp is the derivative of Enthalpy, Phi the integral of Cp/(r T ln 10), Gamma = Cp/(Cp-r) > 1.", "quantifier": "all temperatures T>0", "why_tests_cant": "The inputs range over a continuum; a test samples a few Mach numbers for gamma=1.4 and cannot exclude a wrong region.", "anchors": ["aerokit/aero/ThermoRealGas.py", "aerokit/aero/ThermoKerosen.py"]}
{"id": "C75", "title": "Legacy interface equals the new one", "statement": "Every CompressibleFlow function and every Ti/Pi alias returns the same value (and fails in the same cases) as the function it wraps.", "quantifier": "all arguments", "why_tests_cant": "The inputs range over a continuum; a test samples a few Mach numbers for gamma=1.4 and cannot exclude a wrong region.", "anchors": ["aerokit/aero/CompressibleFlow.py", "aerokit/aero/Isentropic.py", "aerokit/aero/ShockWave.py"]}
{"id": "C76", "title": "Degree trigonometry", "statement": "degree.asin/acos/atan invert sin/cos/tan on their ranges; sin^2+cos^2=1; cos(a)=sin(a+90); atan2 gives the polar angle in (-180,180].", "quantifier": "all angles", "why_tests_cant": "The inputs range over a continuum; a test samples a few Mach numbers for gamma=1.4 and cannot exclude a wrong region.", "anchors": ["aerokit/aero/degree.py"]}
{"id": "C77", "title": "Extended variable expressions", "statement": "expressions_from_rhopv returns, for a database that defines P, rho, V, Vx, Vy, all denominations plus formulas whose value is the perfect-gas quantity (Mach, total pressure, ...); it raises ValueError for incomplete databases and never changes the database.", "quantifier": "all databases, all flow states", "why_tests_cant": "Universal over flow states and databases.", "anchors": ["aerokit/common/extendvar.py"]}
{"id": "C78", "title": "Thrust function", "statement": "ThrustFunction is Sigma/PtPs*(1+gamma M^2), has its minimum at M=1, and Mach_ThrustFunction inverts it.", "quantifier": "all M>0, all gamma>1", "why_tests_cant": "The inputs range over a continuum; a test samples a few Mach numbers for gamma=1.4 and cannot exclude a wrong region.", "anchors": ["aerokit/aero/Propulsion.py"]}
{"id": "C79", "title": "Every module can be imported", "statement": "Importing any aerokit module succeeds when its third-party dependencies are installed.", "quantifier": "all modules", "why_tests_cant": "No test imports Propulsion or extendvar.", "anchors": ["aerokit/aero/Propulsion.py", "aerokit/common/extendvar.py"]}
{"id": "C80", "title": "Conical shock iteration", "statement": "conical_deflection_Mach_sigma returns only when wall and flow angle agree within tol, and then the mean of both; conical_Mach_walldeflection_sigma asserts sigma>deflection.", "quantifier": "all Mach, sigma, gamma, all tol <= |sigma|, any number of passes", "why_tests_cant": "Unbounded while loop.", "anchors": ["aerokit/aero/ShockWave.py: conical_deflection_Mach_sigma"]}
{"id": "C81", "title": "Rankine-Hugoniot boundary equations", "statement": "With RH on the left boundary the three boundary equations are the linearised jump relations of a moving shock; a pure displacement of a shock between two uniform flows satisfies them.", "quantifier": "all base states, all dM0dx, all perturbations", "why_tests_cant": "All sizes, all states: tests compare one spectrum.", "anchors": ["aerokit/stability/Euler.py: setBC_RH"]}
{"id": "C82", "title": "Indexing a state", "statement": "q[i] is the state at point i (also for negative i), with the gamma of q; out of range raises IndexError; a scalar state raises AssertionError.", "quantifier": "all states, all integers", "why_tests_cant": "Universal over sizes and indices; all tests use the default gamma.", "anchors": ["aerokit/aero/model1D.py: state.__getitem__"]}
{"id": "C83", "title": "A failed computation has no lasting effect", "statement": "If get_RHS_time_matrices raises, the matrices returned later (once the cause is fixed) are those a fresh object would return.", "quantifier": "all histories", "why_tests_cant": "Needs a history with an exception in the middle.", "anchors": ["aerokit/stability/_base.py: get_RHS_time_matrices", "aerokit/stability/Euler.py: compute_operators"]}
{"id": "C84", "title": "Initial guess of the Riemann solver", "statement": "Whenever the Riemann problem has a solution the initial guess of the star pressure is a positive number.", "quantifier": "all left/right states, all gammas", "why_tests_cant": "Tests use one gamma.", "anchors": ["aerokit/instance/riemann.py: _pstar_estimate_expansion"]}
{"id": "C85", "title": "Orr-Sommerfeld operators depend only on the settings", "statement": "The matrices computed by an OrrSommerfeldModel depend only on n, the interval and the current base state, never on the history of earlier calls; computing them again succeeds and gives the same matrices.", "quantifier": "all pairs of histories of calls leading to the same settings", "why_tests_cant": "All histories.", "anchors": ["aerokit/stability/OrrSommerfeld.py: compute_operators, compute_BC", "aerokit/stability/_base.py: get_RHS_time_matrices"]}
{"id": "C86", "title": "Ideal work of the low pressure turbine", "statement": "Wsp_TBP_ideal(P19) is the work of the isentropic expansion of the core flow from the turbine exit to P19 (positive when P19 is below the exit pressure), and thermal_efficiency divides it by the heat.", "quantifier": "all feasible engines, all P19 > 0", "why_tests_cant": "Sign and factor errors need the formula, not a value.", "anchors": ["aerokit/engine/gasgenerator.py: base.Wsp_TBP_ideal"]}
{"id": "C87", "title": "Share of the power taken by the fan", "statement": "For fanpower_ratio in [0,1] a feasible turbofan computes; with 1 the core leaves without velocity at ambient pressure, with 0 it exhausts like the turbojet and the bypass flow is not worked on.", "quantifier": "all feasible turbofans", "why_tests_cant": "The inputs range over a continuum; a test samples a few Mach numbers for gamma=1.4 and cannot exclude a wrong region.", "anchors": ["aerokit/engine/turbofan.py: turbofan_adapt.update"]}
{"id": "C88", "title": "Propulsive efficiency at most one", "statement": "propulsive_efficiency never exceeds 1 for an engine that gives kinetic energy to the gas.", "quantifier": "all feasible turbojets", "why_tests_cant": "The inputs range over a continuum; a test samples a few Mach numbers for gamma=1.4 and cannot exclude a wrong region.", "anchors": ["aerokit/engine/turbojet.py: propulsive_efficiency"]}
{"id": "C89", "title": "Performances reflect the last update", "statement": "Calling flight_conditions without update changes no performance.", "quantifier": "all objects, all flight conditions", "why_tests_cant": "Needs a history with a stale object.", "anchors": ["aerokit/engine/gasgenerator.py", "aerokit/engine/turbojet.py", "aerokit/engine/turbofan.py"]}
{"id": "C90", "title": "The conical flow equation is Taylor-Maccoll", "statement": "The derivatives (with respect to the ray angle, in degrees) integrated by conical_deflection_Mach_sigma are exactly those that mass conservation and irrotationality of the steady axisymmetric conical flow of a perfect gas impose.", "quantifier": "all gamma > 1, all rays, all flow angles and Mach numbers for which the code computes a value", "why_tests_cant": "The inputs range over a continuum; a test samples a few Mach numbers for gamma=1.4 and cannot exclude a wrong region.", "anchors": ["aerokit/aero/ShockWave.py: conical_deflection_Mach_sigma (rhs)"]}
{"id": "C91", "title": "Shock polar plots", "statement": "Every finite point drawn by shockpolar.plot_theta_pressure / plot_theta_sigma (lines and markers) satisfies the classical shock polar relation of the flow, shifted to (thet_init, p_init); the line starts at (thet_init, p_init), its pressure increases to the normal shock; the devmax marker bounds the deviation of every point; behind the sonic marker the flow is sonic; the left curve is the mirror image of the right one; 'both' draws exactly the two.", "quantifier": "all mach > 1, gamma > 1, npts, thet_init, p_init > 0, curve names and marker options", "why_tests_cant": "Universal over flows and over the number of points.", "anchors": ["aerokit/aero/plot/shockpolar.py"]}
{"id": "C92", "title": "Isentropic polar plots", "statement": "Every finite point drawn by isentropicpolar.plot_theta_pressure is the state behind an isentropic simple wave turning the flow by its deviation (C+; opposite deviation for C-); pressure is strictly monotone along the curve, equal to p_init at thet_init; over a symmetric range C- is the mirror image of C+; the devmax and sonic options have no effect.", "quantifier": "all mach >= 1, gamma > 1, ranges, npts, curve names, any sound root finder", "why_tests_cant": "Universal over flows and over the number of points.", "anchors": ["aerokit/aero/plot/isentropicpolar.py", "aerokit/aero/Supersonic.py: IsentropicPsratio_Mach_deflection"]}
{"id": "C93", "title": "Weak shocks and weak simple waves", "statement": "As the pressure ratio tends to 1 the deviation through a shock and through an isentropic wave have the same slope sqrt(M^2-1)/(gamma M^2) in absolute value (deflection_Mach_IsentropicPsratio has the opposite sign convention), and the total pressure loss of the shock is of third order in Mn^2-1.", "quantifier": "all M > 1, gamma > 1 (total pressure: default gamma)", "why_tests_cant": "The inputs range over a continuum; a test samples a few Mach numbers for gamma=1.4 and cannot exclude a wrong region.", "anchors": ["aerokit/aero/ShockWave.py: deflection_Mach_ShockPsratio, Pt_ratio", "aerokit/aero/Supersonic.py: deflection_Mach_IsentropicPsratio"]}
{"id": "C94", "title": "Area ratio inversion of arrays", "statement": "Mach_Sigma called with arrays returns, entry by entry, the Mach number with the requested area ratio on the side of the throat named by the argument Mach (which is only a selector); MachSub_Sigma / MachSup_Sigma of an array are the arrays of the scalar results.", "quantifier": "all arrays of any length, area ratios > 1, gamma in (1,3), any root finder honouring its contract", "why_tests_cant": "All lengths and all mixtures of branches; tests use one branch at a time.", "anchors": ["aerokit/aero/MassFlow.py: Mach_Sigma, MachSub_Sigma, MachSup_Sigma"]}
{"id": "C95", "title": "Error bound of the secant search", "statement": "When the function is concave and monotone and the two starting points are on the same side of the root, secant_solve never overshoots: the value returned is between the starting point and the root; for a Lipschitz function the residual of the returned value is bounded by the Lipschitz constant times the last step.", "quantifier": "all concave monotone / Lipschitz functions, all starting points", "why_tests_cant": "Universal over functions.", "anchors": ["aerokit/aero/IterativeSolve.py: secant_solve"]}
{"id": "C96", "title": "Inversions by the secant search", "statement": "The Mach numbers returned by old_Mach_PrandtlMeyer and Mn_Pt_ratio solve the equation: the search always returns, the residual is controlled by the last step, and (Mn_Pt_ratio, shocks from Mach 1.4985 to 6) it converges without warning to a relative error of 7e-5; old_Mach_PrandtlMeyer (air, Mach 1 to 450) converges without warning to an angle within 0.0006 degree times the Mach number; a total pressure ratio above 1 gives Mn = 1.", "quantifier": "all targets of the stated ranges", "why_tests_cant": "The inputs range over a continuum; a test samples a few Mach numbers for gamma=1.4 and cannot exclude a wrong region.", "anchors": ["aerokit/aero/Supersonic.py: old_Mach_PrandtlMeyer", "aerokit/aero/ShockWave.py: Mn_Pt_ratio"]}
{"id": "C97", "title": "Shape of the shock polar", "statement": "For a given upstream Mach number the deflection is a concave function of the shock angle between the Mach angle and 90 degrees, increasing up to sigma_DevMax and decreasing beyond.", "quantifier": "all M > 1, gamma > 1, all shock angles", "why_tests_cant": "The inputs range over a continuum; a test samples a few Mach numbers for gamma=1.4 and cannot exclude a wrong region.", "anchors": ["aerokit/aero/ShockWave.py: deflection_Mach_sigma, sigma_DevMax"]}
{"id": "C98", "title": "Weak shock search", "statement": "sigma_Mach_deflection returns the weak shock angle (up to the residual of the secant search) for any attached deflection, for positive and negative deflections and at zero deflection (Mach angle).", "quantifier": "all M > 1, all deflections below dev_Max", "why_tests_cant": "The inputs range over a continuum; a test samples a few Mach numbers for gamma=1.4 and cannot exclude a wrong region.", "anchors": ["aerokit/aero/ShockWave.py: sigma_Mach_deflection"]}
{"id": "C99", "title": "Refinement of an eigenpair", "statement": "converge_eigenpair: once an iteration no longer changes the pair, the value is an exact eigenvalue; the value returned is the quotient of the mode returned (the residual is orthogonal to the mode); the starting mode matters only by its direction; started on an exact eigenvalue it returns the corresponding mode.", "quantifier": "all matrices of any size, all starting pairs, any number of iterations", "why_tests_cant": "Universal over matrices and iteration counts.", "anchors": ["aerokit/stability/_base.py: converge_eigenpair"]}
{"id": "C100", "title": "Eigenpairs are modes", "statement": "Every pair (omega, v) returned by solve_eig gives a non-zero solution exp(-i omega t) v of At dq/dt = B q, whose amplitude is multiplied by exp(Im(omega) t); conversely such a solution is an eigenpair.", "quantifier": "all matrices, all times, any sound generalised eigenvalue solver", "why_tests_cant": "Universal over matrices and times.", "anchors": ["aerokit/stability/_base.py: solve_eig"]}
{"id": "C101", "title": "Characteristic speeds of the Euler equations", "statement": "left_acoustic, u and right_acoustic are, in increasing order, exactly the characteristic speeds of the one-dimensional Euler equations; asound^2 is the derivative of the pressure along the isentrope; copying a state changes none of them.", "quantifier": "all states rho>0, p>0, gamma>1", "why_tests_cant": "The inputs range over a continuum; a test samples a few Mach numbers for gamma=1.4 and cannot exclude a wrong region.", "anchors": ["aerokit/aero/model1D.py: state", "aerokit/aero/unsteady1D.py: unsteady_state"]}
{"id": "C102", "title": "Engine performances are the momentum and energy balances", "statement": "Thrust, specific thrust, kinetic power, heat, efficiencies and specific consumption of turbojet_opt and turbofan_adapt are those of the momentum and energy balances of the jets.", "quantifier": "all feasible engines and flight conditions", "why_tests_cant": "The inputs range over a continuum; a test samples a few Mach numbers for gamma=1.4 and cannot exclude a wrong region.", "anchors": ["aerokit/engine/turbojet.py", "aerokit/engine/turbofan.py"]}
{"id": "C103", "title": "First law for the whole engine", "statement": "The heat released by the combustion is exactly shared between the kinetic power given to the flow, the enthalpy carried away by the jets above the ambient air and the losses of the shafts.", "quantifier": "all feasible engines and flight conditions", "why_tests_cant": "The inputs range over a continuum; a test samples a few Mach numbers for gamma=1.4 and cannot exclude a wrong region.", "anchors": ["aerokit/engine/gasgenerator.py", "aerokit/engine/turbojet.py", "aerokit/engine/turbofan.py"]}
{"id": "C104", "title": "Ideal turbojet has the Brayton efficiency", "statement": "Without losses and with a single gas, the thermal efficiency of the turbojet is 1 - T0/Tt3 whatever the turbine entry temperature.", "quantifier": "all lossless engines and flight conditions", "why_tests_cant": "The inputs range over a continuum; a test samples a few Mach numbers for gamma=1.4 and cannot exclude a wrong region.", "anchors": ["aerokit/engine/turbojet.py: thermal_efficiency"]}
{"id": "C105", "title": "Optimal fan of the ideal turbofan", "statement": "calculs_tau_optimum prints the temperature ratios of the flight and of the compressor, and the fan exit temperature that maximises the specific thrust of the turbofan for the given bypass ratio.", "quantifier": "all bypass ratios, pressure ratios, turbine entry temperatures", "why_tests_cant": "An optimum is a statement about every alternative.", "anchors": ["aerokit/engine/propu_be.py: calculs_tau_optimum"]}
{"id": "C106", "title": "Copies are independent", "statement": "A copy of a state (copy, copysymmetric) holds the same values, and whatever is later written into the arrays of one of the two, the other keeps its values.", "quantifier": "all array states (shared arrays included), all sequences of writes", "why_tests_cant": "Aliasing shows only in a later write.", "anchors": ["aerokit/aero/model1D.py: state.copy", "aerokit/aero/unsteady1D.py: unsteady_state.copy, copysymmetric"]}
{"id": "C107", "title": "State behind a moving shock", "statement": "Given a shock velocity, shock_downstream / _rankinehugoniot_from_ushock return the state behind the compression shock moving at that velocity; applying it again gives the original state back.", "quantifier": "all states, all supersonic shock velocities", "why_tests_cant": "The inputs range over a continuum; a test samples a few Mach numbers for gamma=1.4 and cannot exclude a wrong region.", "anchors": ["aerokit/aero/unsteady1D.py: shock_downstream, _rankinehugoniot_from_ushock"]}
{"id": "C108", "title": "Inverse searches on conical shocks", "statement": "conical_sigma_Mach_walldeflection / conical_Mach_walldeflection_sigma return the shock angle / Mach number whose conical flow has the requested wall deflection.", "quantifier": "all Mach numbers, deflections, shock angles for which they return", "why_tests_cant": "The inputs range over a continuum; a test samples a few Mach numbers for gamma=1.4 and cannot exclude a wrong region.", "anchors": ["aerokit/aero/ShockWave.py: conical_sigma_Mach_walldeflection, conical_Mach_walldeflection_sigma"]}
{"id": "C109", "title": "The Riemann solution is a weak solution of the Euler equations", "statement": "The profile sampled by qsol is, away from the five wave speeds, a differentiable solution of the Euler equations, and over any moving segment [a t, b t] (shocks, contact and fans inside or not) mass, momentum and energy are exactly what entered through the ends; between undisturbed points the content is the balance of the two initial states; entropy increases through shocks and is kept through expansions.", "quantifier": "all left/right states without vacuum (also two gases), all segments, any root finder honouring its contract", "why_tests_cant": "Conservation over every segment is a statement about integrals of the whole profile.", "anchors": ["aerokit/instance/riemann.py: riemann_pb, qsol"]}
{"id": "C110", "title": "RK4 is stable and of order four", "statement": "Two runs of RK4 from different initial values stay within exp(L (t-x)) times their initial distance at every sample; for every smooth right-hand side the distance to the exact solution is at most K h^4 (t-x) exp(M (t-x)) at every sample, with K independent of the step, the interval and the solution; for linear systems K is explicit.", "quantifier": "all right-hand sides (Lipschitz / four times differentiable with bounded derivatives / linear) in any normed space, all intervals, all steps, any number of steps", "why_tests_cant": "Convergence rates are statements about every step size.", "anchors": ["aerokit/common/_ode.py: RK4"]}
{"id": "C111", "title": "Algebra of the spectral derivative matrices", "statement": "matder(m) is the m-th power of matder(1), zero from order n on and not before; only constants have a zero first derivative; reversing the order of the nodes multiplies matder(m) by (-1)^m; the collocation problems u' = f with one prescribed value and u'' = f with prescribed end values have exactly one solution.", "quantifier": "all numbers of nodes, intervals, orders of derivative, right-hand sides, histories of calls on the object", "why_tests_cant": "All sizes; uniqueness is a statement about every candidate.", "anchors": ["aerokit/common/numspectral.py: ChebCollocation.matder"]}
{"id": "C112", "title": "Spectral accuracy", "statement": "For a function with n derivatives, extrapol of its samples differs from it by at most 4 max|f^(n)| ((b-a)/4)^n / n! on the whole interval, and matder(m) applied to its samples differs from the m-th derivative by at most max|f^(n)| (b-a)^(n-m)/(n-m)! at the nodes; when derivatives grow at most geometrically the error tends to zero with n.", "quantifier": "all functions, all numbers of nodes, intervals, points, orders, histories of calls", "why_tests_cant": "Accuracy over every function is universal.", "anchors": ["aerokit/common/numspectral.py: ChebCollocation.matder, extrapol"]}
{"id": "C113", "title": "Modes of the linearised Euler equations", "statement": "The pairs (omega, v) of the matrices computed by Euler1D are exactly the non-zero fields whose boundary conditions hold at both ends (periodicity of values and derivatives, or walls) and which satisfy the Euler equations linearised about the base flow at every interior node; over a uniform periodic flow the eigenvalues are those of three scalar waves carried at U-c, U, U+c; between walls in a gas at rest the non-zero ones are those of the acoustic wave equation; the spectrum is symmetric (conjugation) and unchanged by the mirror image of the flow.", "quantifier": "all base flows without zero density, all numbers of nodes, intervals, histories of calls, all complex omega and v", "why_tests_cant": "An equivalence over every candidate mode of every flow.", "anchors": ["aerokit/stability/Euler.py: Euler1D", "aerokit/stability/_base.py"]}
{"id": "C114", "title": "Modes and symmetries of the Orr-Sommerfeld problem", "statement": "The pairs (omega, v) of the matrices computed by OrrSommerfeldModel are exactly the non-zero v with v = v' = 0 at both walls satisfying the Orr-Sommerfeld equation at the inner nodes; conjugation maps alpha to -conj(alpha) and omega to -conj(omega); adding a uniform velocity U0 shifts omega by alpha U0; reversing the profile reverses the mode; for an even profile modes split into even and odd ones; changing units of length and velocity scales omega accordingly.", "quantifier": "all profiles, alpha, Re != 0, numbers of nodes >= 4, intervals, histories of calls", "why_tests_cant": "An equivalence over every candidate mode of every flow.", "anchors": ["aerokit/stability/OrrSommerfeld.py"]}
{"id": "C115", "title": "Units invariance of the Riemann problem", "statement": "Multiplying the densities of the data by a, the velocities by b and the pressures by a b^2 (a change of units) multiplies the star state, the wave speeds and the whole sampled solution accordingly.", "quantifier": "all pairs of states without vacuum, all a, b > 0, all x/t, any sound root finder", "why_tests_cant": "The inputs range over a continuum; a test samples a few Mach numbers for gamma=1.4 and cannot exclude a wrong region.", "anchors": ["aerokit/instance/riemann.py: riemann_pb"]}
{"id": "C116", "title": "Dependence of the star state on the data", "statement": "A faster left gas raises the star pressure and velocity, a faster right gas lowers the star pressure and raises the star velocity; a higher pressure on either side raises the star pressure and pushes the contact away; a denser left gas strengthens its wave's side of the balance; two identical states give the uniform flow.", "quantifier": "all pairs of states without vacuum, any sound root finder", "why_tests_cant": "Monotonicity over every pair of data.", "anchors": ["aerokit/instance/riemann.py: riemann_pb"]}
{"id": "C117", "title": "The inflow problem is well posed", "statement": "For given total conditions the equation solved by solve_with_pt0_rtt0 has exactly one solution with a non-negative inlet velocity when the total pressure is at least the pressure at which the gas comes to rest; it may also have a root with a negative velocity (a spurious one); the wave is a shock or an expansion according to the pressure.", "quantifier": "all initial states, all pt0, rtt0 > 0", "why_tests_cant": "The inputs range over a continuum; a test samples a few Mach numbers for gamma=1.4 and cannot exclude a wrong region.", "anchors": ["aerokit/instance/unsteady_inflow.py"]}
{"id": "C118", "title": "Position of the shock in the diffuser", "statement": "For each pressure ratio of the shock regime there is exactly one Mach number whose normal shock has the total pressure loss of the flow; the shock stands at its section, between throat and exit, and moves downstream as the pressure ratio increases, from the throat to the exit; set_NPR switches at the point whose choked Mach number is the closest to the one found for that loss.", "quantifier": "all area ratios > 1, all pressure ratios of the regime, all section laws, any root finder honouring its contract", "why_tests_cant": "The inputs range over a continuum; a test samples a few Mach numbers for gamma=1.4 and cannot exclude a wrong region.", "anchors": ["aerokit/instance/nozzle.py: Ms_from_AsAc_NPR, set_NPR"]}
{"id": "C119", "title": "Fanno and Rayleigh flows obey the equations of motion", "statement": "Along a Fanno flow the ratios satisfy the momentum equation with the wall friction measured by the decrease of maxFparam_Mach, and the entropy produced is the dissipation of the friction; along a Rayleigh flow the entropy comes from the heat only, T ds = cp dTi.", "quantifier": "all Mach numbers > 0, all gamma > 1", "why_tests_cant": "The inputs range over a continuum; a test samples a few Mach numbers for gamma=1.4 and cannot exclude a wrong region.", "anchors": ["aerokit/aero/Fanno.py", "aerokit/aero/Rayleigh.py"]}
{"id": "C120", "title": "A normal shock stays on its Fanno and Rayleigh lines", "statement": "The states before and after a normal shock have the same critical state for the Fanno line (mass, energy) and for the Rayleigh line (mass, momentum): the shock ratios are quotients of the line ratios; the entropy rise is the same on both lines and is that of the total pressure loss.", "quantifier": "all upstream Mach numbers >= 1, all gamma > 1 (total pressure: default gamma)", "why_tests_cant": "The inputs range over a continuum; a test samples a few Mach numbers for gamma=1.4 and cannot exclude a wrong region.", "anchors": ["aerokit/aero/Fanno.py", "aerokit/aero/Rayleigh.py", "aerokit/aero/ShockWave.py"]}
{"id": "C121", "title": "Mass flow and choking of the nozzle", "statement": "After set_NPR the mass flow section * total pressure * WeightMassFlow(Mach) is the same at every point of the profile; it increases strictly with the pressure ratio until the throat is sonic, where it is that of the sonic flow through the smallest section, and does not change any more beyond NPR0, with or without a shock in the diffuser.", "quantifier": "all section laws, all pressure ratios > 1 for which set_NPR returns, default gamma, any root finder honouring its contract", "why_tests_cant": "Universal over section laws and pressure ratios.", "anchors": ["aerokit/instance/nozzle.py: nozzle.set_NPR", "aerokit/aero/MassFlow.py: WeightMassFlow"]}
{"id": "C122", "title": "Better components give more thrust", "statement": "With a better inlet, compressor, turbine, shaft or nozzle, or a hotter turbine inlet, everything else being the same, the turbojet still runs, burns not less fuel, and turbine exit temperature and pressure, jet velocity and thrust do not decrease; a hotter turbine inlet strictly increases fuel, turbine exit temperature and (jet under pressure) thrust.", "quantifier": "all feasible engines with OPR >= 1, all flight conditions", "why_tests_cant": "The inputs range over a continuum; a test samples a few Mach numbers for gamma=1.4 and cannot exclude a wrong region.", "anchors": ["aerokit/engine/gasgenerator.py", "aerokit/engine/turbojet.py"]}
{"id": "C123", "title": "Similarity of the engines", "statement": "Multiplying the ambient pressure changes no performance of a turbojet or turbofan; multiplying temperatures (ambient, turbine entry) and heat of combustion by l multiplies thrusts by sqrt(l), powers by l, divides the specific consumption by sqrt(l) and changes no efficiency; errors occur in the same cases.", "quantifier": "all engines (feasible or not), all flight conditions, all positive factors", "why_tests_cant": "The inputs range over a continuum; a test samples a few Mach numbers for gamma=1.4 and cannot exclude a wrong region.", "anchors": ["aerokit/engine/gasgenerator.py", "aerokit/engine/turbojet.py", "aerokit/engine/turbofan.py"]}
{"id": "C124", "title": "The mass flow is only a scale", "statement": "Multiplying the mass flow of a turbofan cycle (both classes, both scripts) by k multiplies the thrust and the powers by k and leaves specific thrust, specific consumption, efficiencies, temperatures and fan pressure ratio unchanged, whatever the histories of calls; failures are the same.", "quantifier": "all design parameters, gases, histories, k != 0", "why_tests_cant": "The inputs range over a continuum; a test samples a few Mach numbers for gamma=1.4 and cannot exclude a wrong region.", "anchors": ["aerokit/engine/Cycle_Turbofan.py", "aerokit/engine/propu_be.py", "aerokit/engine/propu_be_double_corps.py"]}
{"id": "C125", "title": "Balances of the turbofan cycles", "statement": "The thrust of a cycle is the momentum balance of the captured air, fuel and jets, its thermal efficiency the kinetic power over the heat release, its overall efficiency the thrust power over the heat release, its consumption the fuel flow over the thrust in the displayed unit (g/kN/s).", "quantifier": "all design parameters and gases for which the cycle is computed", "why_tests_cant": "The inputs range over a continuum; a test samples a few Mach numbers for gamma=1.4 and cannot exclude a wrong region.", "anchors": ["aerokit/engine/Cycle_Turbofan.py: perfo, show_perfo"]}
{"id": "C126", "title": "Figures of the parametric study", "statement": "main of propu_be_double_corps shows three figures; each panel is the graph of one performance returned by calculs against one parameter (twenty evenly spaced values between the given bounds, both included), the other parameters at their base values; no value of a previous sweep remains.", "quantifier": "all bounds", "why_tests_cant": "The table of results is shared and mutated by the three sweeps.", "anchors": ["aerokit/engine/propu_be_double_corps.py: main, plot"]}
{"id": "C127", "title": "Hypersonic limits and largest deflection", "statement": "As the Mach number grows without bound the density ratio, downstream Mach number, Prandtl-Meyer angle, Fanno length, Rayleigh ratios tend to their known finite limits and the pressure and temperature ratios, the section ratio and the isentropic ratios grow without bound; dev_Max increases strictly with the Mach number towards asin(1/gamma) without reaching it, so a wedge of at least that angle never has an attached shock and the search functions return their detached values.", "quantifier": "all gamma > 1 (total pressure loss: default gas), all Mach numbers", "why_tests_cant": "The inputs range over a continuum; a test samples a few Mach numbers for gamma=1.4 and cannot exclude a wrong region.", "anchors": ["aerokit/aero/ShockWave.py: dev_Max, Rho_ratio, downstream_Mn, Pt_ratio, weaksigma_Mach_deflection, strongsigma_Mach_deflection", "aerokit/aero/Supersonic.py", "aerokit/aero/Fanno.py", "aerokit/aero/Rayleigh.py", "aerokit/aero/MassFlow.py", "aerokit/aero/Isentropic.py"]}
{"id": "C128", "title": "Rounding errors of the flow functions", "statement": "In any floating point arithmetic whose operations have relative error at most u <= 1/64 (no overflow or underflow), the isentropic, mass flow, normal shock, Fanno and Rayleigh functions return, and their relative error is that of at most K roundings, K u/(1 - K u), with K a small constant (5 to 25), or growing only with gamma/(gamma-1) and the logarithm of the ratio for those that contain a power; without rounding they are the exact functions.", "quantifier": "all arithmetics (binary64 in particular), all gamma > 1, all Mach numbers (>= 1 for shocks)", "why_tests_cant": "Universal over roundings and inputs.", "anchors": ["aerokit/aero/Isentropic.py", "aerokit/aero/MassFlow.py: WeightMassFlow, Sigma_Mach", "aerokit/aero/ShockWave.py: Ps_ratio, Mn_Ps_ratio, Rho_ratio, Ts_ratio, downstream_Mn, Pt_ratio", "aerokit/aero/Fanno.py", "aerokit/aero/Rayleigh.py"]}
{"id": "C129", "title": "Round trips in floating point", "statement": "In floating point, Mach_TtTs(TtTs_Mach(M)), Mach_PtPs(PtPs_Mach(M)) and Mn_Ps_ratio(Ps_ratio(M)) give M back up to a few roundings.", "quantifier": "all arithmetics, all gamma > 1, all Mach numbers", "why_tests_cant": "Universal over roundings and inputs.", "anchors": ["aerokit/aero/Isentropic.py: Mach_TtTs, Mach_PtPs", "aerokit/aero/ShockWave.py: Mn_Ps_ratio"]}
{"id": "C130", "title": "RK4 reaches the end of its interval in floating point", "statement": "In floating point (round to nearest), RK4 from x to xStop with a positive step stops after about (xStop-x)/h steps, its abscissas increase strictly, and the last one is xStop.", "quantifier": "all arithmetics rounding to nearest, all precisions, all x, xStop, h > 0 in floating point, all right-hand sides (with any rounding)", "why_tests_cant": "Termination of a loop on rounded abscissas for every step; tests try a few steps.", "anchors": ["aerokit/common/_ode.py: RK4"]}
{"id": "C131", "title": "Order and step control of RKF45", "statement": "RKF45 is a fifth-order method: for every smooth right-hand side with bounded derivatives, every run that takes no step longer than H <= 1 stays within K H^5 (t-x) exp(1.5 M (t-x)) of the exact solution at every sample, whatever the sequence of accepted and rejected steps; every sample is one Cash-Karp step with an accepted estimate from the previous one; the estimate is at most K h^5, runs always return, and no step but the last is shorter than min(h, c tol^(1/5)), so the number of samples is bounded.", "quantifier": "all dimensions, all right-hand sides of class C5 with bounded derivatives, all exact solutions, all intervals, tolerances, initial steps", "why_tests_cant": "Universal over equations and step sequences; tests look at a few convergence curves.", "anchors": ["aerokit/common/_ode.py: RKF45, _rkf45"]}
{"id": "C132", "title": "The tolerance of RKF45 bounds the error", "statement": "The error of the samples returned by RKF45 is bounded by the tolerance (times the number of steps and the amplification of the equation).", "quantifier": "all equations, tolerances, intervals", "why_tests_cant": "The estimate can vanish while the error does not; only a proof separates the equations for which the tolerance is meaningful.", "anchors": ["aerokit/common/_ode.py: RKF45, _rkf45"]}
{"id": "C133", "title": "Gas functions of the minimum length nozzle script", "statement": "pmeyer, pmeyer_prime, mach_angle and rapport_expansion of Minimum_length_nozzle.py agree with the functions of aerokit for the gas of the script (gamma = 1.27): pmeyer is the Prandtl-Meyer function in radians, pmeyer_prime its derivative, rapport_expansion the section ratio, mach_angle the Mach angle; outside their domain they fail in the same cases.", "quantifier": "all Mach numbers", "why_tests_cant": "The inputs range over a continuum; a test samples a few Mach numbers for gamma=1.4 and cannot exclude a wrong region.", "anchors": ["notebooks/Minimum_length_nozzle.py: pmeyer, pmeyer_prime, mach_angle, rapport_expansion", "aerokit/aero/Supersonic.py: PrandtlMeyer_Mach", "aerokit/aero/MassFlow.py: Sigma_Mach"]}
{"id": "C134", "title": "The Newton search of the Mach number", "statement": "mach_via_pmeyer terminates for every angle from 0 to the largest turning angle (plus its tolerance) and its result has the requested Prandtl-Meyer angle within 1e-5; beyond the largest turning angle the loop never ends; negative angles never give a result; between Mach 1.1 and 2.9 the Mach number itself is found within 3.4e-5.", "quantifier": "all angles", "why_tests_cant": "Termination of a Newton iteration from a fixed guess over a whole interval.", "anchors": ["notebooks/Minimum_length_nozzle.py: mach_via_pmeyer"]}
{"id": "C135", "title": "The points of the nozzle form a net of characteristics", "statement": "Whenever Minimum_length_nozzle returns, its points form the net of characteristics of the centred expansion of half the Prandtl-Meyer angle of the requested Mach number: theta+nu and theta-nu are constant along the two families, every segment has the mean characteristic direction of its ends, points of the axis have zero angle, the returned profile is the wall cancelling the reflected waves, parallel to the axis at its end, and the returned Mach number is the requested one within the tolerance.", "quantifier": "all Mach numbers, throat areas, numbers of waves for which it returns", "why_tests_cant": "All sizes of the net.", "anchors": ["notebooks/Minimum_length_nozzle.py: Minimum_length_nozzle, point_ecoulement"]}
{"id": "C136", "title": "The minimum length nozzle is built and its wall is regular", "statement": "For any supersonic Mach number, throat area and positive number of waves, Minimum_length_nozzle returns; its profile starts at the corner of the throat, goes downstream, widens, and is concave. Without waves or for a subsonic Mach number it fails.", "quantifier": "all Mach numbers, throat areas, numbers of waves", "why_tests_cant": "All sizes of the net; no crossing of characteristics is an ordering of every node.", "anchors": ["notebooks/Minimum_length_nozzle.py: Minimum_length_nozzle"]}
{"id": "C137", "title": "Arrays handed out by ChebCollocation", "statement": "The nodes (xi, x) are computed at the first access only and the same array is returned ever after; each object has its own arrays: an array obtained from one object is never used by another, so that several objects used together give the right nodes and matrices whatever is written into arrays of the others; a matrix of an order never asked before is right whatever was written before. What a caller does with an array it received does not change what the object returns later.", "quantifier": "all numbers of objects, intervals, sizes, histories of calls and of writes into any array", "why_tests_cant": "Aliasing shows only in a later read, for some interleaving.", "anchors": ["aerokit/common/_dev.py: lazyprop", "aerokit/common/numspectral.py: ChebCollocation.xi, x, matder, compute_matder"]}
{"id": "C138", "title": "The working states of the ramjet diagram are possible flows", "statement": "For any flight and throat Mach numbers for which the diffuser diverges, the ramjet script draws: a conventional branch, each point of which is the flow with exactly one normal shock in the diffuser, heated to the abscissa, with a sonic nozzle throat and conserved mass; more heat moves the shock from the diffuser exit (first point) to the throat (last point) and raises the total pressure; a fully supersonic branch, from no heat to the choking of the nozzle; an unstarted branch with a subsonic throat behind a normal shock at the flight Mach number; and a restart branch with a sonic throat that joins it. The unstarted branch begins before the conventional one ends, with a lower total pressure.", "quantifier": "all flight and throat Mach numbers, numbers of points", "why_tests_cant": "The existence and uniqueness of the shock position is a statement about every point of a continuous family.", "anchors": ["examples/ramjet-working.py: (FS), (CW), (UC), (RC)", "aerokit/aero/Rayleigh.py: SubMach_TiTicri, SupMach_TiTicri", "aerokit/aero/MassFlow.py: Mach_Sigma"]}
{"id": "C139", "title": "The area ratio searches with the algorithm of scipy", "statement": "With the secant method of scipy.optimize.newton as it is (second point, 50 iterations, step tolerance 1.48e-8), MachSub_Sigma and MachSup_Sigma return for every area ratio the subsonic, respectively supersonic, Mach number within a few 1e-8, exactly 1 at the throat; Mach_Sigma from its default guess returns a Mach number of that area ratio or raises.", "quantifier": "all area ratios >= 1, default gas", "why_tests_cant": "Convergence of a derivative-free iteration over a continuum of inputs; a false convergence is silent.", "anchors": ["aerokit/aero/MassFlow.py: Mach_Sigma, MachSub_Sigma, MachSup_Sigma, __MachSub_sigma, __MachSup_sigma"]}
{"id": "C140", "title": "The Riemann problem with the algorithm of scipy", "statement": "With the secant method of scipy.optimize.newton as it is (started at the code's own two-expansion estimate, rtol=1e-10, 50 iterations), the constructor of the Riemann problem succeeds for all states that leave no vacuum, and pstar is the root of the velocity jump within the tolerance (exactly, if both waves are expansions).", "quantifier": "all pairs of states with equal gamma", "why_tests_cant": "Convergence of an iteration over a six-parameter family of states.", "anchors": ["aerokit/instance/riemann.py: riemann_pb.__init__, pstar_estimate_expansion, du"]}
{"id": "C141", "title": "The Prandtl-Meyer inversion with the algorithm of scipy", "statement": "With the secant method of scipy.optimize.newton as it is (start 2.0, step tolerance 1.48e-8, 50 iterations), Mach_PrandtlMeyer returns, for every angle from 0 to the largest turning angle, a Mach number of at least 1 whose angle is the requested one within 1e-6 degree (the Mach number itself with a relative error below 1e-8 above Mach 1.2); at and beyond the largest turning angle it raises; it gives no value for clearly negative angles. IsentropicPsratio_Mach_deflection inherits this.", "quantifier": "all turning angles, all gases", "why_tests_cant": "Convergence of a derivative-free iteration over a continuum of inputs; the slope of the function vanishes at Mach 1 and at infinity.", "anchors": ["aerokit/aero/Supersonic.py: Mach_PrandtlMeyer, IsentropicPsratio_Mach_deflection"]}
{"id": "C142", "title": "The shock impact model", "statement": "ShockModel of the stability example gives, for every number of points, length and Mach number, a base flow of constant total pressure and temperature, slowed down linearly to rest at the wall, whose first point is the flow behind a normal shock of exactly the requested Mach number; its matrices can be computed, with one additional unknown for the shock; the relations printed at the top are the derivatives of the shock ratios; without any Mach number the constructor fails.", "quantifier": "all numbers of points >= 2, lengths > 0, Mach numbers, gradients, memory states", "why_tests_cant": "Composition of collocation, isentropic and shock relations, and in-place boundary rows, for every size and Mach number.", "anchors": ["examples/stability/shock.py: ShockModel", "aerokit/stability/Euler.py: Euler1D", "aerokit/aero/model1D.py: compute_from_pt_rtt_u", "aerokit/aero/ShockWave.py: Ps_ratio, Rho_ratio, downstream_Mn"]}
{"id": "C143", "title": "Array arguments", "statement": "On numpy arrays of any shape, and on any mixture of floats and arrays of one shape, every closed-form function of degree, Isentropic, MassFlow, Fanno, Rayleigh, Supersonic and ShockWave returns an array exactly when an argument is one, and each entry is what the float call returns on the corresponding entries, whatever the other entries are (NaN included). The searches based on secant_solve are so in the searched quantity and its initial guess (turning angle, deflection, cone angle) with a float Mach number.", "quantifier": "all shapes, entries, mixtures of floats and arrays", "why_tests_cant": "A unit test uses one or two arrays; the claim is about every shape, every mixture and every position of an invalid entry.", "anchors": ["aerokit/aero/degree.py", "aerokit/aero/Isentropic.py", "aerokit/aero/MassFlow.py: WeightMassFlow, Sigma_Mach", "aerokit/aero/Fanno.py", "aerokit/aero/Rayleigh.py", "aerokit/aero/Supersonic.py", "aerokit/aero/ShockWave.py", "aerokit/aero/IterativeSolve.py: secant_solve"]}
{"id": "C144", "title": "The inverse flow functions on arrays with the algorithm of scipy", "statement": "With the vectorised secant method of scipy.optimize.newton as it is (one loop for the whole array, its own second point and stopping rule), Mach_Sigma with an array of guesses, MachSub_Sigma, MachSup_Sigma and Mach_PrandtlMeyer accept arrays: no exception is raised and every entry is solved on the side asked for, whatever the other entries are.", "quantifier": "all shapes with at least two entries, all area ratios >= 1 and turning angles, all mixtures of subsonic and supersonic guesses", "why_tests_cant": "One loop and one stopping rule are shared by all entries; a test sees a few arrays.", "anchors": ["aerokit/aero/MassFlow.py: Mach_Sigma, MachSub_Sigma, MachSup_Sigma", "aerokit/aero/Supersonic.py: Mach_PrandtlMeyer"]}
{"id": "C145", "title": "No growing mode over a uniform flow", "statement": "Over a uniform flow with periodic conditions, and in a gas at rest between two walls, no mode of the matrices computed by Euler1D grows or decays: every eigenvalue is real, for every number of points, interval, state and Mach number. In particular for the Tube of examples/stability/euler1d.py, whose modes are the periodic waves at the speeds 100 (Mach - 1), 100 Mach and 100 (Mach + 1).", "quantifier": "all numbers of points >= 3, intervals, uniform states, Mach numbers, complex frequencies and vectors", "why_tests_cant": "The spectrum of a non-symmetric matrix of every size; a test computes a few spectra in floating point.", "anchors": ["aerokit/stability/Euler.py: Euler1D.compute_operators, setBC_per, setBC_sym", "examples/stability/euler1d.py: Tube", "aerokit/common/numspectral.py: ChebCollocation.matder"]}
{"id": "C146", "title": "The validation script of the area ratio search", "statement": "In validation_sigma_convergence.py the Mach numbers found by Mach_Sigma(Sigma_Mach(Mach), Mach) on the whole array are the original ones; the three expansions drawn beside Sigma_Mach are its low Mach asymptote, its second-order expansion at Mach 1 and its high Mach asymptote.", "quantifier": "all arrays of Mach numbers of the proved domain (the 1000 points of the script in particular), all gases, all Mach numbers", "why_tests_cant": "Asymptotic behaviour is a limit; the round trip depends on a loop shared by all entries.", "anchors": ["examples/aero/validation_sigma_convergence.py", "aerokit/aero/MassFlow.py: Mach_Sigma, Sigma_Mach"]}
{"id": "C147", "title": "More bypass air gives more thrust", "statement": "Giving the same fan power to more air, everything else being the same, leaves the core of turbofan_adapt unchanged, makes the fan flow cooler and slower, does not decrease the thrust and does not increase the specific consumption.", "quantifier": "all feasible turbofans and flight conditions, all bypass ratios, all fan efficiencies", "why_tests_cant": "The inputs range over a continuum; a test samples a few Mach numbers for gamma=1.4 and cannot exclude a wrong region.", "anchors": ["aerokit/engine/turbofan.py: turbofan_adapt.update, norm_thrust", "aerokit/engine/gasgenerator.py", "aerokit/engine/turbojet.py: Sfc"]}
{"id": "C148", "title": "Optimal fan power", "statement": "The thrust of turbofan_adapt is a concave function of fanpower_ratio, the core jet slows down and the fan jet speeds up as it grows; with turbine and fan without losses a ratio inside ]0, 1[ is optimal if and only if the fan jet velocity is eta_shaft times the core jet velocity, and there is exactly one such ratio when the core jet without fan is fast enough.", "quantifier": "all feasible turbofans and flight conditions, all ratios in [0, 1]", "why_tests_cant": "Optimality is a comparison with a continuum of designs.", "anchors": ["aerokit/engine/turbofan.py: turbofan_adapt.update, norm_thrust"]}
{"id": "C149", "title": "The shipped scripts find what they import", "statement": "Every script of the directories examples and notebooks gets through its import statements when the third-party packages are installed, whatever has been imported before in the session.", "quantifier": "all scripts, all import histories, all environments with the packages installed", "why_tests_cant": "Import errors depend on what has been imported before; the scripts are not run by any test.", "anchors": ["examples/*.py", "examples/*/*.py", "notebooks/*.py"]}
{"id": "C150", "title": "Charts of the example scripts", "statement": "Each curve of rayleigh-heating.py is drawn with finite points only: equidistant abscissas from 1 to the maximal heating ratio, the flow at abscissa x having x times the stagnation temperature of the initial flow, from the initial Mach number strictly towards Mach 1, which it reaches; the polars of shockwave-polar.py and shockwave-polar-p.py are drawn with their labels; the same loops are right for another gas.", "quantifier": "all initial Mach numbers > 0, all numbers of points, all gases", "why_tests_cant": "The inputs range over a continuum; a test samples a few Mach numbers for gamma=1.4 and cannot exclude a wrong region.", "anchors": ["examples/rayleigh-heating.py", "examples/shockwave-polar.py", "examples/shockwave-polar-p.py"]}
{"id": "C151", "title": "The guide vane script", "statement": "In Riemann-GuideVane.py the initial flow is the one choked by a vane of the given angle (same mass flow and total state as a sonic throat of the given pressure); the imposed final state has the same Mach number and total temperature and the given multiple of the total pressure and mass flow, and sends an expansion upstream and a shock downstream; the state of the same pressure sends two shocks; pressures and velocities between the waves are ordered accordingly.", "quantifier": "all angles below 90 degrees, throat pressures, total pressure ratios > 1, any sound root finders", "why_tests_cant": "The inputs range over a continuum; a test samples a few Mach numbers for gamma=1.4 and cannot exclude a wrong region.", "anchors": ["notebooks/Riemann-GuideVane.py", "aerokit/aero/MassFlow.py: Mach_Sigma", "aerokit/instance/riemann.py", "aerokit/aero/Isentropic.py"]}
{"id": "C152", "title": "remove_output.py never loses a notebook", "statement": "Wherever remove_output.py is interrupted (crash, power cut, exception), the complete original text of every notebook on the command line is still there, under its name or its .bak name; no other file is changed; a run that ends has replaced each notebook by its cleaned text and kept the original as .bak; a notebook that cannot be cleaned stays where it was.", "quantifier": "all lists of names, file systems, contents, crash points, behaviours of nbformat", "why_tests_cant": "Crash points and file systems are not covered by tests.", "anchors": ["notebooks/remove_output.py: __main__"]}
{"id": "C153", "title": "remove_outputs removes outputs only", "statement": "remove_outputs empties the outputs and deletes the counters of every code cell, and changes nothing else: worksheets, order, number and type of cells, sources, metadata, and all entries of other cells; cleaning again changes nothing; it fails only for a cell without a type.", "quantifier": "all notebooks", "why_tests_cant": "All contents and all numbers of cells.", "anchors": ["notebooks/remove_output.py: remove_outputs"]}
{"id": "C154", "title": "The fan redistributes the energy of the core", "statement": "The kinetic energy per unit mass of core flow delivered by the two streams of a turbofan is at most the one a turbojet with the same core parameters and flight delivers, minus the shaft loss of the fan spool, whatever the bypass ratio and the fraction of power given to the fan; with a lossless fan, low pressure turbine, inlet and nozzle it is exactly that, and with a lossless shaft too the thermal efficiencies of both engines are equal.", "quantifier": "all feasible turbofans and flights, all bypass ratios and power fractions", "why_tests_cant": "The inputs range over a continuum; a test samples a few Mach numbers for gamma=1.4 and cannot exclude a wrong region.", "anchors": ["aerokit/engine/turbofan.py:update", "aerokit/engine/turbojet.py:update", "aerokit/engine/gasgenerator.py:update"]}
{"id": "C155", "title": "The expansion notebook describes an exact flow", "statement": "In Caract-01-expansion.ipynb, for a uniform flow at any Mach number from 1 turned by a convex corner: flow_prop returns at every point of the plane the directions of a flow with the invariant of the initial flow, uniform outside the fan, continuous at the two limiting rays, tangent to both walls, with the C+ characteristic along the ray in the fan; the flow of the fan satisfies mass conservation and irrotationality; integ draws the straight C+ rays; p1p0 is the pressure ratio of the turn; the notebook runs in a new kernel.", "quantifier": "all Mach numbers and wall angles, all points of the plane, all starting points and numbers of steps of the characteristics", "why_tests_cant": "The inputs range over a continuum; a test samples a few Mach numbers for gamma=1.4 and cannot exclude a wrong region.", "anchors": ["notebooks/aero/Caract-01-expansion.ipynb:init_case", "notebooks/aero/Caract-01-expansion.ipynb:flow_prop", "notebooks/aero/Caract-01-expansion.ipynb:integ", "aerokit/aero/Supersonic.py:Mach_PMFmmu", "aerokit/aero/Supersonic.py:IsentropicPsratio_Mach_deflection"]}
{"id": "C156", "title": "The map of turbofans", "statement": "examples/turbofan.py draws a map of 49 bypass ratios by 11 compressor temperatures: no entry of the arrays fails, every entry is the thrust and the overall efficiency of the engine of its row and column, thrusts are positive and efficiencies strictly between 0 and 1; for every compressor temperature of the range and bypass ratios up to 10, a larger bypass ratio gives less thrust per unit mass of air, a better overall efficiency and the same thermal efficiency, which bounds the overall one.", "quantifier": "all entries of the map, all compressor temperatures from 252 to 800 K, all pairs of bypass ratios in ]0, 10]", "why_tests_cant": "The inputs range over a continuum; a test samples a few Mach numbers for gamma=1.4 and cannot exclude a wrong region.", "anchors": ["examples/turbofan.py", "aerokit/engine/turbofan.py: turbofan_adapt", "aerokit/engine/gasgenerator.py: base.update", "aerokit/engine/turbojet.py: turbojet_opt"]}
{"id": "C157", "title": "Better components give more thrust (turbofan)", "statement": "With better components (inlet, compressor, turbines, shafts, fan, nozzle) or a hotter turbine inlet, everything else being the same, a turbofan still runs, burns not less fuel, its two jets are not slower and its thrust is not smaller; a hotter turbine inlet strictly increases fuel and thrust.", "quantifier": "all feasible turbofans and flights, all pairs of designs of which one has no component worse than the other", "why_tests_cant": "The inputs range over a continuum; a test samples a few Mach numbers for gamma=1.4 and cannot exclude a wrong region.", "anchors": ["aerokit/engine/turbofan.py: turbofan_adapt.update, norm_thrust", "aerokit/engine/gasgenerator.py: base.update"]}
{"id": "C158", "title": "The notebook classes agree with the package", "statement": "The classes built in Turbofan_pyclass_design.ipynb show, for every engine, the same performances as the classes of aerokit.engine.Cycle_Turbofan that the notebook evaluates afterwards.", "quantifier": "all gases, bypass ratios, pressure ratios, turbine temperatures, mass flows, fan settings", "why_tests_cant": "The inputs range over a continuum; a test samples a few Mach numbers for gamma=1.4 and cannot exclude a wrong region.", "anchors": ["notebooks/Turbofan_pyclass_design.ipynb: cycle_taux_fan_fixe.stage_9, cycle_taux_fan_calcule.stage_9, calculs_5_to_9", "aerokit/engine/Cycle_Turbofan.py: cycle_taux_fan_fixe, cycle_taux_fan_calcule"]}
{"id": "C159", "title": "A wedge between two shocks", "statement": "In Shock-22-shock-expansion.ipynb, for a supersonic flow over a roof-shaped obstacle whose two faces are steep enough to be seen and small enough to keep the shocks attached: the cells end; each reported shock is an exact weak oblique shock whose deflection is the wall's, the Mach number used behind it is its downstream Mach number, the expansion conserves the stagnation pressure and turns the flow by the change of wall angle, and the pressure of each face is the product of the ratios upstream of it.", "quantifier": "all Mach numbers from 1.01 to 10, wall angles, windward flows and turns (air); the notebook's own values from end to end", "why_tests_cant": "The inputs range over a continuum; a test samples a few Mach numbers for gamma=1.4 and cannot exclude a wrong region.", "anchors": ["notebooks/aero/Shock-22-shock-expansion.ipynb: cells 5, 6, 9, 11", "aerokit/aero/ShockWave.py: sigma_Mach_deflection, Ps_ratio, downstream_Mn", "aerokit/aero/Supersonic.py: Mach_PrandtlMeyer, IsentropicPsratio_Mach_deflection"]}
{"id": "C160", "title": "A reflected shock", "statement": "In Shock-21-reflexion.ipynb and its widget version, for a supersonic flow over a ramp that supports an attached shock and an attached reflection: the cells end; each shock is an exact weak oblique shock that turns the flow by the ramp angle, so that the flow behind the reflection is parallel to the walls again; the pressure ratios multiply; the drawn shocks have the computed inclinations.", "quantifier": "all Mach numbers from 1.01 to 10, ramp angles, heights of the drawing (air); the notebook's own values from end to end", "why_tests_cant": "The inputs range over a continuum; a test samples a few Mach numbers for gamma=1.4 and cannot exclude a wrong region.", "anchors": ["notebooks/aero/Shock-21-reflexion.ipynb: cells 5, 6, 8, 9", "notebooks/aero/Shock-21-reflexion-widget.ipynb: plot_all", "aerokit/aero/ShockWave.py: sigma_Mach_deflection, Ps_ratio, downstream_Mn"]}
{"id": "C161", "title": "Simple waves along a curved wall", "statement": "In Caract-02-smooth wall.ipynb: wall_angle returns the direction of the wall (exactly, away from the junctions); plot_CP draws a characteristic from every wall point of each case; on the progressive expansion the drawn characteristics never cross, on the compression neighbouring ones converge and plot_CP_focus draws each to its crossing with the next; mach returns, where its loop ends, the flow of a characteristic through the point that meets a wall point with the same flow, and the undisturbed flow upstream of the first characteristic; the characteristics of the focused compression meet in one point.", "quantifier": "all wall points and abscissas, ramp angles, points of the plane upstream of the wave, numbers of turns of the loop; Mach 2 for the end-to-end statements", "why_tests_cant": "The inputs range over a continuum; a test samples a few Mach numbers for gamma=1.4 and cannot exclude a wrong region.", "anchors": ["notebooks/aero/Caract-02-smooth wall.ipynb: wall_angle, mach_wall, mach, plot_CP, plot_CP_focus, xy_intersect_rate, ywall", "aerokit/aero/Supersonic.py: PrandtlMeyer_Mach, Mach_PrandtlMeyer"]}
{"id": "C162", "title": "The shock tube notebook", "statement": "In Riemann-Shocktube.ipynb: the cells run; the driver gas is expanded isentropically and the driven gas compressed by a shock; a weaker shock enters the helium and the interface is accelerated; the helium is brought to rest at the wall by a shock moving left; the second interaction sends shocks into both gases and the interface goes on to the right, slower; the interactions follow each other, each at the crossing of the trajectories that meet; the printed compression ratios and shock Mach numbers satisfy the shock relations; the drawn expansion consists of characteristics.", "quantifier": "all initial pressures, temperatures and pressure ratios > 1, all sound root finders", "why_tests_cant": "The inputs range over a continuum; a test samples a few Mach numbers for gamma=1.4 and cannot exclude a wrong region.", "anchors": ["notebooks/aero/Riemann-Shocktube.ipynb: cells 3, 5, 7, 9, 11, 13, xt_intersect", "aerokit/instance/riemann.py: riemann_pb", "aerokit/aero/unsteady1D.py: copysymmetric", "aerokit/aero/model1D.py: left_acoustic, right_acoustic"]}
{"id": "C163", "title": "The nozzle regimes notebook", "statement": "In Nozzle-regimes.ipynb: the contour deduced from the Mach numbers decreases to a throat at the abscissa 1, increases from it and ends at the target ratio; the limits are those of the library; the Mach numbers of the choked subsonic flow are found; the supersonic flow recovers the Mach numbers of the contour on the right branches and ends at the pressure 1/NPR1; a shock at the exit ends at 1/NPRsw; a shock in the diffuser conserves the mass flow at every section, has the exit Mach number of the library and ends at 1/NPR.", "quantifier": "all target ratios 1 < A <= 25, all numbers of points >= 2, all shock positions in [0, 1], all complete root finders on the branch of their guess", "why_tests_cant": "The inputs range over a continuum; a test samples a few Mach numbers for gamma=1.4 and cannot exclude a wrong region.", "anchors": ["notebooks/aero/Nozzle-regimes.ipynb: cells 2, 4, 9, 12, 13, 15, 16, 18", "aerokit/instance/nozzle.py: _NPR_Ms_list, Ms_from_AsAc_NPR", "aerokit/aero/MassFlow.py: Mach_Sigma, MachSub_Sigma"]}
{"id": "C164", "title": "The short nozzle notebook and the nozzle widget", "statement": "In Nozzle-regimes-short.ipynb and Nozzle-widget.ipynb: the limits of the regimes are read from the library; the isentropic subsonic flow of a given throat Mach number has this Mach number as maximum and the sections of the contour; the sections of the widget are at least 1, have their minimum at the abscissa 1 and end at the requested ratio; the nozzle object built from them has the requested exit ratio, so that the limits drawn next to the profile are its own.", "quantifier": "all target ratios 1 < A <= 25, all requested ratios > 1, all numbers of points, all throat Mach numbers in (0, 1], all complete root finders on the branch of their guess", "why_tests_cant": "The inputs range over a continuum; a test samples a few Mach numbers for gamma=1.4 and cannot exclude a wrong region.", "anchors": ["notebooks/aero/Nozzle-regimes-short.ipynb: cells 2, 4, 6", "notebooks/aero/Nozzle-widget.ipynb: cells 2, 4", "aerokit/aero/nozzle.py: star import", "aerokit/instance/nozzle.py: nozzle, _NPR_Ms_list"]}
{"id": "C165", "title": "The approximations of the area function", "statement": "In Sigma-approximation.ipynb: the two curves drawn next to the area function are positive and below it at every Mach number; the ratio to the first tends to 1 for small Mach numbers and to the second for large ones, with explicit bounds; the two inverses drawn from the areas give, for each Mach number, the subsonic and the supersonic Mach numbers with its area, one of which is the Mach number itself.", "quantifier": "all gamma > 1 and all Mach numbers > 0 (curves); all arrays of positive Mach numbers and all complete root finders on the branch of their guess (inverses)", "why_tests_cant": "The inputs range over a continuum; a test samples a few Mach numbers for gamma=1.4 and cannot exclude a wrong region.", "anchors": ["notebooks/Sigma-approximation.ipynb: cells 1, 2", "aerokit/aero/MassFlow.py: Sigma_Mach, MachSub_Sigma, MachSup_Sigma"]}
{"id": "C166", "title": "The reference flows of the inlet notebook", "statement": "In aero/unsteady_inflow.ipynb: the flow rate of the final state of same Mach number is the pressure ratio times the initial one; that of the final state of same static pressure is above the initial one; the normalised curves are defined at every point.", "quantifier": "all initial Mach numbers > 0, all total pressure ratios >= 1, all flow rates normalised", "why_tests_cant": "The inputs range over a continuum; a test samples a few Mach numbers for gamma=1.4 and cannot exclude a wrong region.", "anchors": ["notebooks/aero/unsteady_inflow.ipynb: cell 1", "aerokit/aero/model1D.py: compute_from_pt_rtt_p, compute_from_pt_rtt_M"]}
