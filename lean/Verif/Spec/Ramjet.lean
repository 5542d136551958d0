import Verif.Model.Ramjet

/-! # Specification of the working states of a ramjet

Areas are divided by the area of the inlet throat (section 2); total pressures by the one at the throat. -/

namespace Aerokit.Spec.Ramjet
open ShockWave MassFlow Rayleigh

/-- the values of the `i`-th point of a branch -/
def IsPoint (b : Ramjet.Branch) (i : ℕ) (α m3 m4 p3 p4 : ℝ) : Prop :=
  b.alpha[i]? = some (.ok α) ∧ b.m3[i]? = some (.ok m3) ∧ b.m4[i]? = some (.ok m4) ∧ b.pi3[i]? = some (.ok p3) ∧
    b.pi4[i]? = some (.ok p4)

/-- A diffuser of exit area `A3` behind a throat of Mach number `Mt`: the flow stays supersonic and isentropic up to the section `As`, where a normal
shock stands at the Mach number `Ms`; it is then subsonic and isentropic up to the exit, of Mach number `m3`.  `p` is the total pressure behind the
shock. -/
structure ShockInDiffuser (γ Mt A3 As Ms m3 p : ℝ) : Prop where
  inside : 1 ≤ As ∧ As ≤ A3
  sup : 1 ≤ Ms
  sub : 0 < m3 ∧ m3 ≤ 1
  upstream : ∃ st ss, Sigma_Mach Mt γ = .ok st ∧ Sigma_Mach Ms γ = .ok ss ∧ ss = As * st
  shock : Pt_ratio Ms γ = .ok p
  downstream : ∃ md sd s3, downstream_Mn Ms γ = .ok md ∧ Sigma_Mach md γ = .ok sd ∧ Sigma_Mach m3 γ = .ok s3 ∧ s3 * As = sd * A3

/-- heat addition at constant area from `m3` to `m4`: the total temperature is multiplied by `α`, the total pressure by `r` -/
def Heated (γ m3 m4 α r : ℝ) : Prop :=
  ∃ t3 t4 q3 q4, Ti_Ticri m3 γ = .ok t3 ∧ Ti_Ticri m4 γ = .ok t4 ∧ Pi_Picri m3 γ = .ok q3 ∧ Pi_Picri m4 γ = .ok q4 ∧
    t4 = α * t3 ∧ q4 = r * q3

/-- conservation of mass between a throat of area 1, Mach number `Mt`, total pressure `pt` and the sonic nozzle throat of area `A8`, total pressure `p4`,
total temperature multiplied by `α` -/
def MassBalance (γ Mt pt A8 α p4 : ℝ) : Prop :=
  ∃ st, Sigma_Mach Mt γ = .ok st ∧ pt / st = p4 * A8 / Real.sqrt α

end Aerokit.Spec.Ramjet
