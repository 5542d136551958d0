# source of properties.jsonl (first part); run tools/mkprops.py to regenerate
P = []
def p(id, title, statement, quantifier, why, anchors):
    P.append(dict(id=id, title=title, statement=statement, quantifier=quantifier, why_tests_cant=why, anchors=anchors))
A="aerokit/aero/"; C="aerokit/common/"; I="aerokit/instance/"; S="aerokit/stability/"; N="aerokit/engine/"
CONT="The inputs range over a continuum; a test samples a few Mach numbers for gamma=1.4 and cannot exclude a wrong region."
p("C01","Temperature ratio and Mach number are inverse","For gamma>1, Mach_TtTs(TtTs_Mach(M)) returns M for every M>=0, and TtTs_Mach(Mach_TtTs(t)) returns t for every t>=1; for t<1 Mach_TtTs has no real value (NaN).","all Mach >= 0, all ratios, all gamma > 1",CONT,[A+"Isentropic.py: TtTs_Mach, Mach_TtTs"])
p("C02","Pressure ratio and Mach number are inverse","For gamma>1, Mach_PtPs(PtPs_Mach(M)) returns M for every M>=0, PtPs_Mach(Mach_PtPs(p)) returns p for every p>=1, and for 0<p<1 Mach_PtPs has no real value.","all Mach >= 0, all ratios, all gamma > 1",CONT,[A+"Isentropic.py: PtPs_Mach, Mach_PtPs"])
p("C03","Isentropic law and monotonicity","For gamma>1, PtPs = TtTs^(gamma/(gamma-1)); both ratios are >= 1, equal 1 only at M=0, and strictly increase with M on [0,inf).","all Mach, all gamma > 1",CONT,[A+"Isentropic.py: TtTs_Mach, PtPs_Mach"])
p("C04","Velocity conserves total enthalpy","The velocity V=Velocity_MachTt(M,Tt,r,gamma) satisfies cp*Ts + V^2/2 = cp*Tt with Ts = Tt/TtTs_Mach(M) and V = M*sqrt(gamma*r*Ts).","all M, Tt>=0, r>0, gamma>1",CONT,[A+"Isentropic.py: Velocity_MachTt"])
p("C05","Sigma is the mass-flow ratio","Sigma_Mach(M) = WeightMassFlow(1)/WeightMassFlow(M), whatever r is passed.","all M>0, all r, all gamma>1",CONT,[A+"MassFlow.py: Sigma_Mach, WeightMassFlow"])
p("C06","Sigma has its only minimum at the throat","Sigma_Mach >= 1 for M>0, = 1 only at M=1, strictly decreasing on (0,1] and strictly increasing on [1,inf).","all M>0, all gamma>1",CONT,[A+"MassFlow.py: Sigma_Mach"])
p("C07","Area ratio inversion is well posed","For every sigma>1 exactly one subsonic and exactly one supersonic Mach number have Sigma_Mach(M)=sigma; MachSub_Sigma/MachSup_Sigma return one of them whenever the root finder converges, and the one on its own branch when the iterate stays on that branch; so Mach -> Sigma -> Mach is the identity on each branch.","all sigma>=1, all gamma in (1,3), every root finder whose returned value is a root",CONT+" The number of roots is not observable by evaluating the function.",[A+"MassFlow.py: MachSub_Sigma, MachSup_Sigma, Mach_Sigma"])
p("C08","Initial guesses lie on the right branch","The initial Mach given to the root finder is <=1 for MachSub_Sigma and >=1 for MachSup_Sigma for every sigma>=1 and 1<gamma<3; the subsonic guess is a positive Mach number.","all sigma>=1, all 1<gamma<3","The subsonic guess silently becomes negative for gamma>1.4; only a proof over gamma shows where.",[A+"MassFlow.py: __MachSub_sigma, __MachSup_sigma"])
p("C09","Normal shock satisfies the Rankine-Hugoniot equations","Ps_ratio, Rho_ratio, Ts_ratio, downstream_Mn computed from one upstream Mach number conserve mass, momentum and total enthalpy across the shock.","all upstream states (rho,p>0) and Mn>=1, all gamma>1",CONT,[A+"ShockWave.py: Ps_ratio, Rho_ratio, Ts_ratio, downstream_Mn"])
p("C10","Shock strength inversion","Mn_Ps_ratio(Ps_ratio(M)) = M for M>=0 and Ps_ratio(Mn_Ps_ratio(p)) = p for every p reachable by the radicand; outside there is no real value.","all M>=0, all p, all gamma>1",CONT,[A+"ShockWave.py: Ps_ratio, Mn_Ps_ratio"])
p("C11","Downstream normal Mach number is an involution exchanging sub and supersonic","downstream_Mn(downstream_Mn(M)) = M on M^2 > (gamma-1)/(2 gamma); downstream <1 iff upstream >1; strictly decreasing.","all M with M^2>(gamma-1)/(2gamma), all gamma>1",CONT,[A+"ShockWave.py: downstream_Mn"])
p("C12","Second law through a shock","Pt_ratio(Mn, gamma) <= 1 for Mn>=1 with equality only at Mn=1, and it equals Ps_ratio*PtPs(M2,gamma)/PtPs(Mn,gamma).","all Mn>=1, all gamma>1","Holds at gamma=1.4 (all tests) and fails elsewhere because gamma is not forwarded.",[A+"ShockWave.py: Pt_ratio"])
p("C13","Shock ratios are ordered and bounded","For Mn>=1: Ps_ratio>=1, 1<=Rho_ratio<(gamma+1)/(gamma-1), Ts_ratio>=1, all strictly increasing.","all Mn>=1, all gamma>1",CONT,[A+"ShockWave.py: Ps_ratio, Rho_ratio, Ts_ratio"])
p("C14","Oblique shock deflection relation","deflection_Mach_sigma(M,sigma) is the theta of the theta-beta-M relation: tan(sigma-theta)*Rho_ratio = tan(sigma); it is 0 at the Mach angle, positive strictly between the Mach angle and 90 degrees, negative below.","all M>1, all sigma in (0,90) degrees, all gamma>1",CONT,[A+"ShockWave.py: deflection_Mach_sigma"])
p("C15","Closed form weak/strong shock angles solve the shock polar","When the cubic has a solution, weaksigma and strongsigma return angles in (0,90) whose deflection is exactly the requested deflection, and weak <= strong.","all M>1, deflection in (0,90), gamma>1 with non-positive discriminant","The trigonometric cubic solution selects roots by branch of arccos; only a proof shows no parameter picks a wrong root.",[A+"ShockWave.py: weaksigma_Mach_deflection, strongsigma_Mach_deflection"])
p("C16","sigma_Sonic gives a sonic downstream flow","For M>=1 the angle sigma_Sonic(M) yields a downstream Mach number equal to 1.","all M>=1, all gamma>1",CONT,[A+"ShockWave.py: sigma_Sonic, dev_Sonic"])
p("C17","sigma_DevMax maximises the deflection","dev_Max(M) >= deflection_Mach_sigma(M,sigma) for every sigma between the Mach angle and 90 degrees, with equality only at sigma_DevMax(M).","all M>1, all sigma, all gamma>1","A maximum over a continuum of shock angles cannot be tested.",[A+"ShockWave.py: sigma_DevMax, dev_Max"])
p("C18","Downstream Mach number of an oblique shock","downstreamMach_Mach_ShockPsratio conserves total enthalpy and tangential velocity across the oblique shock.","all M>1, pressure ratios in [1, Ps_ratio(M)), gamma>1",CONT,[A+"ShockWave.py: downstreamMach_Mach_ShockPsratio"])
p("C19","Prandtl-Meyer function","PrandtlMeyer_Mach is 0 at M=1, strictly increasing on [1,inf), below 90*(sqrt((g+1)/(g-1))-1) degrees, and undefined (NaN) for |M|<1.","all M>=1, all gamma>1",CONT,[A+"Supersonic.py: PrandtlMeyer_Mach"])
p("C20","Mach_PMFmmu inverts omega-mu","Mach_PMFmmu(omega(M)-mu(M)) = M where mu=asin(1/M) in degrees.","all M>1 (and M=1), all gamma>1",CONT,[A+"Supersonic.py: Mach_PMFmmu"])
p("C21","Simple-wave deflection and pressure ratio are inverse","IsentropicPsratio_Mach_deflection(M,d) = p implies deflection_Mach_IsentropicPsratio(M,p) = -d up to the code's sign convention, and Mach_PrandtlMeyer(PrandtlMeyer_Mach(M)) = M.","all M>=1, all deflections keeping the flow supersonic, all gamma>1, any root finder returning a supersonic root",CONT,[A+"Supersonic.py: deflection_Mach_IsentropicPsratio, IsentropicPsratio_Mach_deflection, Mach_PrandtlMeyer"])
p("C22","Fanno ratios are mutually consistent","The Fanno ratios to the critical state satisfy perfect gas law p=rho T, constant mass flow rho V=1, V=M sqrt(T), constant total temperature, Pi = p*PtPs(M)/PtPs(1), entropy = log of total pressure, and all are 1 at M=1.","all M>0, all gamma>1",CONT,[A+"Fanno.py"])
p("C23","Fanno choking","maxFparam_Mach >=0 with equality only at M=1, strictly decreasing on (0,1], strictly increasing on [1,inf); NormdS <= 0 with equality only at M=1.","all M>0, all gamma>1",CONT,[A+"Fanno.py: maxFparam_Mach, NormdS, Pi_Picri"])
p("C24","Rayleigh ratios are mutually consistent","Rayleigh ratios satisfy p=rho T, rho V=1, p(1+gamma M^2) constant (momentum), V=M sqrt(T), Ti=T*TtTs(M)/TtTs(1), Pi=p*PtPs(M)/PtPs(1), entropy from T and p, all 1 at M=1.","all M>0, all gamma>1",CONT,[A+"Rayleigh.py"])
p("C25","Rayleigh choking","Ti_Ticri <= 1 with equality only at M=1, strictly increasing below and decreasing above M=1; NormdS <= 0 with equality only at M=1; static temperature peaks at M=1/sqrt(gamma).","all M>0, all gamma>1",CONT,[A+"Rayleigh.py: Ti_Ticri, NormdS, Ts_Tscri"])
p("C26","Rayleigh inversions","SubMach_TiTicri and SupMach_TiTicri return the unique subsonic resp. supersonic Mach number with the given Ti/Ti_cri and are left inverses on their branch; SupMach has no value at or below the asymptotic ratio 1-1/gamma^2.","all ratios in their range, all gamma>1",CONT,[A+"Rayleigh.py: SubMach_TiTicri, SupMach_TiTicri"])
p("C27","Maximum heating ratio honours gamma","maxTiratio_Mach(M,gamma)*Ti_Ticri(M,gamma) = 1.","all M>0, all gamma>1","The committed test pins the wrong value for gamma=1.3; the code ignores gamma.",[A+"Rayleigh.py: maxTiratio_Mach"])
p("C28","secant_solve terminates and solves","secant_solve evaluates f at most 20 times; on an affine f it returns the exact solution for a non-zero start that is large enough; when it stops without warning the last two iterates are within tolerance.","all functions f, targets y, starting points x, tolerances","Histories of iterates of an arbitrary f.",[A+"IterativeSolve.py: secant_solve"])
p("C29","secant_solve with a small starting point","A starting point with |x| <= 0.01 (default tol) must not make secant_solve return without iterating.","all f, y and all |x|<=0.01","The silent no-op depends on the start only and happens for every f; tests never start near 0.",[A+"IterativeSolve.py: secant_solve"])
p("C30","RK4 stops exactly at xStop","For h>0 RK4 terminates after ceil((xStop-x)/h) steps, X is strictly increasing from x to exactly xStop, len(X)=len(Y), no step exceeds h; for h<=0 and x<xStop it never terminates.","all F, x, y, xStop, h","Termination and the exact end point are quantified over all step sizes.",[C+"_ode.py: RK4"])
p("C31","RK4 order","One RK4 step integrates every right-hand side that is a cubic polynomial in x exactly and reproduces the Taylor expansion of the linear ODE y'=ky up to h^4.","all polynomials of degree <=3, all k, x, y, h",CONT,[C+"_ode.py: RK4"])
p("C32","Embedded Cash-Karp step","_rkf45 integrates polynomial right-hand sides of degree <=4 exactly, reports zero error for degree <=3, and reproduces the Taylor expansion of linear ODEs to h^5.","all polynomials, all linear ODEs, all h",CONT,[C+"_ode.py: _rkf45"])
p("C33","RKF45 reaches xStop","The last sample of RKF45 is at xStop whenever it stops before its iteration budget.","all F, xStop, h, tol","The premature stop needs a rejected last step after the stop flag was raised: a history property.",[C+"_ode.py: RKF45"])
p("C34","defaultgas is a pair of registers with one save slot","After any history of set/save/restore calls, gamma() and r_ideal() return the value of the last set or restore, restore gives the values at the last save (NameError if none).","all call histories","Unbounded histories.",[C+"defaultgas.py"])
p("C35","set_gamma changes the default gamma of the flow functions","After defaultgas.set_gamma(g), functions called without gamma use g (documented in the module docstrings).","all import/call histories","Import-time binding of defaults: depends on the order of imports and calls.",[C+"defaultgas.py", A+"Isentropic.py", A+"ShockWave.py"])
p("C36","dicoVar behaves as a map with guarded insertion/update","For any history, get/call/getitem agree and return the last value written; addVar refuses existing and setVar refuses missing variables with ValueError and no change.","all histories of addVar/setVar/get/setDicoVar","Unbounded histories.",[C+"dicovar.py: _DicoVar"])
p("C37","User edits never leak into the built-in databases","setDicoVar always restarts from the pristine database, whatever addVar/setVar calls happened before (deep copy isolation).","all histories","Aliasing over unbounded histories.",[C+"dicovar.py: _DicoVar.__init__"])
p("C38","A failed setDicoVar keeps the current database","setDicoVar(unknown) raises ValueError and leaves the current denominations usable.","all histories, all unknown names","Crash point inside __init__ after the dictionary was cleared.",[C+"dicovar.py: setDicoVar, _DicoVar.__init__"])
p("C39","Variable names are case-insensitive","dv['U_avg'] is equivalent to dv['u_avg'] (module documentation); software names are matched case-insensitively.","all names",  "Universal over names.",[C+"dicovar.py"])
p("C40","Chebyshev nodes and affine map","x is strictly increasing from exactly xmin to exactly xmax; _x_to_xi and _xi_to_x are inverse.","all npts>=2, all xmin<xmax","All sizes.",[C+"numspectral.py: ChebCollocation"])
p("C41","Differentiation matrices are exact on polynomials","matder(m) applied to the nodal values of any polynomial of degree < npts gives the nodal values of its m-th derivative.","all npts>=2, all orders m>=1, all polynomials of degree<npts, all intervals","All sizes, orders and polynomials; tests use one n and one function with a tolerance.",[C+"numspectral.py: matder, compute_matder"])
p("C42","matder is history independent","The matrix returned by matder(m) does not depend on which orders were requested before, and cached attributes (x, xi) are computed once.","all histories of matder/x/xi calls","Unbounded histories of cached calls.",[C+"numspectral.py: matder", C+"_dev.py: lazyprop"])
p("C43","extrapol and fit_to_gauss are exact on polynomials","extrapol(f(x_k), x) = f(x) and fit_to_gauss(x, f(x)) = f(x_k) for every polynomial f of degree < npts (at least npts distinct fit points).","all npts>=2, polynomials, points, intervals","All sizes.",[C+"numspectral.py: extrapol, fit_to_gauss"])
