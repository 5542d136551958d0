import Verif.Model.Model1D
import Verif.Lemmas.ShockWave
import Verif.Lemmas.Lits

/-! Closed forms of the methods of `model1D.state` on admissible states. -/

namespace Aerokit.Model1D
open Isentropic ShockWave

/-- positive density and pressure, gamma above 1 -/
structure State.Valid (s : State) : Prop where
  rho : 0 < s.rho
  p : 0 < s.p
  gamma : 1 < s.gamma

namespace State
variable {s : State}

/-- speed of sound -/
noncomputable def cs (s : State) : ℝ := Real.sqrt (s.gamma * s.p / s.rho)

theorem Valid.g0 (h : s.Valid) : 0 < s.gamma := by have := h.gamma; linarith
theorem Valid.cs_pos (h : s.Valid) : 0 < s.cs := by
  have := h.rho; have := h.p; have := h.g0
  exact Real.sqrt_pos.2 (by positivity)
theorem Valid.cs_sq (h : s.Valid) : s.cs ^ 2 = s.gamma * s.p / s.rho := by
  have := h.rho; have := h.p; have := h.g0
  exact Real.sq_sqrt (by positivity)
theorem Valid.asound (h : s.Valid) : s.asound = .ok s.cs := by
  have := h.rho; have := h.p; have := h.g0
  unfold State.asound cs
  rw [Py.div_ok h.rho.ne', Py.ok_bind, Py.sqrt_ok (by positivity)]
theorem Valid.left_acoustic (h : s.Valid) : s.left_acoustic = .ok (s.u - s.cs) := by
  have := h.rho; have := h.p; have := h.g0
  unfold State.left_acoustic cs
  rw [Py.div_ok h.rho.ne', Py.ok_bind, Py.sqrt_ok (by positivity)]; rfl
theorem Valid.right_acoustic (h : s.Valid) : s.right_acoustic = .ok (s.u + s.cs) := by
  have := h.rho; have := h.p; have := h.g0
  unfold State.right_acoustic cs
  rw [Py.div_ok h.rho.ne', Py.ok_bind, Py.sqrt_ok (by positivity)]; rfl
theorem Valid.Mach (h : s.Valid) : s.Mach = .ok (s.u / s.cs) := by
  unfold State.Mach
  rw [h.asound, Py.ok_bind, Py.div_ok h.cs_pos.ne']
theorem Valid.Ptot (h : s.Valid) :
    s.Ptot = .ok (s.p * tt (s.u / s.cs) s.gamma ^ (s.gamma / (s.gamma - 1))) := by
  unfold State.Ptot
  rw [h.Mach, Py.ok_bind, PtPs_Mach_ok h.gamma]; rfl
theorem Valid.rTtot (h : s.Valid) :
    s.rTtot = .ok (s.p / s.rho + (s.gamma - 1) / (2 * s.gamma) * s.u ^ 2) := by
  have := h.g0
  unfold State.rTtot
  rw [Py.div_ok h.rho.ne', Py.ok_bind, Py.div_ok this.ne', Py.ok_bind, Py.pure_eq]
  congr 3; lits; field_simp
/-- `rTtot` is the static value times the total temperature ratio -/
theorem Valid.rTtot_tt (h : s.Valid) :
    s.p / s.rho + (s.gamma - 1) / (2 * s.gamma) * s.u ^ 2
      = s.p / s.rho * tt (s.u / s.cs) s.gamma := by
  have h1 := h.rho; have h2 := h.p; have h3 := h.g0
  unfold tt; rw [div_pow, h.cs_sq]; field_simp

end State
end Aerokit.Model1D
