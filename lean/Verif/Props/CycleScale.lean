import Verif.Props.EngineScale
import Verif.Props.CycleWitness

/-! # Properties C124, C125 : the mass flow is a scale of the turbofan cycles; consumption and efficiency -/

namespace Aerokit.Props
open Cycle

/-- the same cycle with the mass flow multiplied by `k` -/
def bigger (k : ℝ) (i : Inp) : Inp := { i with m := k * i.m }

/-- `F` scaled by `k`, everything else unchanged -/
def PerfScale (k : ℝ) (p q : Perf) : Prop := q = { p with F := k * p.F }

namespace MassScale

variable {k : ℝ}

def R3 (k : ℝ) (a b : S3) : Prop := b = { a with m_c := k * a.m_c, wu_c := k * a.wu_c }
def R4 (k : ℝ) (a b : S4) : Prop := b = { a with m_k := k * a.m_k }
def R13 (k : ℝ) (a b : S13) : Prop := b = { a with m_f := k * a.m_f, wu_f := k * a.wu_f }
def R19 (k : ℝ) (a b : S19) : Prop := b = { a with F_f := k * a.F_f }
def R9 (k : ℝ) (a b : S9) : Prop := b = { a with F_c := k * a.F_c }
def R5c (k : ℝ) (a b : S5c) : Prop := b = { a with wu_fan := k * a.wu_fan }
def R13c (k : ℝ) (a b : S13c) : Prop := b = { a with m_f := k * a.m_f }

theorem r3 (i : Inp) (s2 : S2) : PyRel (R3 k) (val3 i s2) (val3 (bigger k i) s2) := by
  unfold val3 bigger
  simp only [show (1.0 : ℝ) = 1 by norm_num]
  refine (PyRel.div (p := k) (q := 1) (c := k) one_ne_zero rfl (by ring) (by ring)).bind fun m_c m_c' h => ?_; subst h
  refine (PyRel.of_eq rfl).bind fun e _ h => ?_; subst h
  refine (PyRel.of_eq rfl).bind fun q _ h => ?_; subst h
  refine (PyRel.of_eq rfl).bind fun cp _ h => ?_; subst h
  refine PyRel.ok ?_
  unfold R3
  congr 1
  ring

theorem r4 (hk : k ≠ 0) (i : Inp) {a b : S3} (h : R3 k a b) : PyRel (R4 k) (val4 i a) (val4 (bigger k i) b) := by
  subst h
  unfold val4 bigger
  refine (PyRel.of_eq rfl).bind fun cpf _ h => ?_; subst h
  refine (PyRel.of_eq rfl).bind fun cp _ h => ?_; subst h
  refine (PyRel.of_eq rfl).bind fun q _ h => ?_; subst h
  refine (PyRel.div1 hk (by ring) rfl).bind fun al _ h => ?_; subst h
  refine PyRel.ok ?_
  unfold R4
  congr 1
  ring

theorem r13 (i : Inp) (pi_f : ℝ) (s2 : S2) : PyRel (R13 k) (val13 i pi_f s2) (val13 (bigger k i) pi_f s2) := by
  unfold val13 bigger
  simp only [show (1.0 : ℝ) = 1 by norm_num]
  refine (PyRel.div (p := k) (q := 1) (c := k) one_ne_zero (mul_assoc _ _ _) (by ring) (by ring)).bind fun m_c m_c' h => ?_; subst h
  refine (PyRel.of_eq rfl).bind fun e _ h => ?_; subst h
  refine (PyRel.of_eq rfl).bind fun q _ h => ?_; subst h
  refine (PyRel.of_eq rfl).bind fun cp _ h => ?_; subst h
  refine PyRel.ok ?_
  unfold R13
  congr 1
  ring

theorem r19 (i : Inp) (s0 : S0) (m_f Tt13 Pt13 : ℝ) :
    PyRel (R19 k) (val19 i s0 m_f Tt13 Pt13) (val19 (bigger k i) s0 (k * m_f) Tt13 Pt13) := by
  unfold val19 bigger
  refine (PyRel.of_eq rfl).bind fun e _ h => ?_; subst h
  refine (PyRel.of_eq rfl).bind fun q _ h => ?_; subst h
  refine (PyRel.of_eq rfl).bind fun cp _ h => ?_; subst h
  refine PyRel.ok ?_
  unfold R19
  congr 1
  ring

theorem r9 (i : Inp) (s0 : S0) {a b : S3} (h : R3 k a b) (Tt5 Pt5 : ℝ) :
    PyRel (R9 k) (val9 i s0 a Tt5 Pt5) (val9 (bigger k i) s0 b Tt5 Pt5) := by
  subst h
  unfold val9 bigger
  refine (PyRel.of_eq rfl).bind fun e _ h => ?_; subst h
  refine (PyRel.of_eq rfl).bind fun q _ h => ?_; subst h
  refine (PyRel.of_eq rfl).bind fun cp _ h => ?_; subst h
  refine PyRel.ok ?_
  unfold R9
  congr 1
  ring

theorem r5 (hk : k ≠ 0) (i : Inp) {a b : S3} (h : R3 k a b) {c d : S4} (h' : R4 k c d) {e f : S13} (h'' : R13 k e f) :
    PyRel (fun u v : S5 => v = u) (val5 i a c e) (val5 (bigger k i) b d f) := by
  subst h h' h''
  unfold val5 bigger
  simp only [show (1.0 : ℝ) = 1 by norm_num]
  refine (PyRel.of_eq rfl).bind fun cpf _ h => ?_; subst h
  refine (PyRel.div1 hk (by ring) (by ring)).bind fun d _ h => ?_; subst h
  exact PyRel.of_eq rfl

theorem r4e (hk : k ≠ 0) (i : Inp) {a b : S3} (h : R3 k a b) {c d : S4} (h' : R4 k c d) :
    PyRel (fun u v : S4e => v = u) (val4e i a c) (val4e (bigger k i) b d) := by
  subst h h'
  unfold val4e bigger
  simp only [show (1.0 : ℝ) = 1 by norm_num]
  refine (PyRel.of_eq rfl).bind fun cpf _ h => ?_; subst h
  refine (PyRel.div1 hk rfl (by ring)).bind fun d _ h => ?_; subst h
  exact PyRel.of_eq rfl

theorem r5c (hk : k ≠ 0) (i : Inp) (tm : ℝ) {a b : S3} (h : R3 k a b) {c d : S4} (h' : R4 k c d) (e : S4e) :
    PyRel (R5c k) (val5c i tm a c e) (val5c (bigger k i) tm b d e) := by
  subst h h'
  unfold val5c bigger
  simp only [show (1.0 : ℝ) = 1 by norm_num]
  refine (PyRel.of_eq rfl).bind fun q _ h => ?_; subst h
  refine (PyRel.of_eq rfl).bind fun w _ h => ?_; subst h
  refine (PyRel.of_eq rfl).bind fun cpf _ h => ?_; subst h
  refine (PyRel.div1 hk (by ring) (by ring)).bind fun d _ h => ?_; subst h
  refine (PyRel.of_eq rfl).bind fun u _ h => ?_; subst h
  refine (PyRel.of_eq rfl).bind fun e _ h => ?_; subst h
  refine (PyRel.of_eq rfl).bind fun p _ h => ?_; subst h
  refine (PyRel.of_eq rfl).bind fun p5 _ h => ?_; subst h
  refine PyRel.ok ?_
  unfold R5c
  congr 1
  ring

theorem r13c (hk : k ≠ 0) (i : Inp) (s2 : S2) {a b : S5c} (h : R5c k a b) : PyRel (R13c k) (val13c i s2 a) (val13c (bigger k i) s2 b) := by
  subst h
  unfold val13c bigger
  simp only [show (1.0 : ℝ) = 1 by norm_num]
  refine (PyRel.div (p := k) (q := 1) (c := k) one_ne_zero (mul_left_comm _ _ _) (by ring) (by ring)).bind fun m_c m_c' h => ?_; subst h
  refine (PyRel.of_eq rfl).bind fun cp _ h => ?_; subst h
  refine (PyRel.div1 hk (by ring) (by ring)).bind fun d _ h => ?_; subst h
  refine (PyRel.of_eq rfl).bind fun u _ h => ?_; subst h
  refine (PyRel.of_eq rfl).bind fun p _ h => ?_; subst h
  exact PyRel.ok rfl

theorem rP (hk : k ≠ 0) (i : Inp) (s0 : S0) {a b : S3} (h3 : R3 k a b) {c d : S4} (h4 : R4 k c d) (m_f : ℝ) {e f : S19} (h19 : R19 k e f)
    {g j : S9} (h9 : R9 k g j) : PyRel (PerfScale k) (valP i s0 a c m_f e g) (valP (bigger k i) s0 b d (k * m_f) f j) := by
  subst h3 h4 h19 h9
  have h10 : (1.0 : ℝ) = 1 := by norm_num
  have h05 : (0.5 : ℝ) = 1 / 2 := by norm_num
  unfold valP bigger
  simp only [h10, h05]
  refine (PyRel.div1 hk (by ring) rfl).bind fun Fs _ h => ?_; subst h
  refine (PyRel.div1 hk rfl (by ring)).bind fun mk _ h => ?_; subst h
  refine (PyRel.div1 hk (by ring) (by ring)).bind fun eth _ h => ?_; subst h
  refine (PyRel.div1 hk (by ring) (by ring)).bind fun ep _ h => ?_; subst h
  refine PyRel.ok ?_
  unfold PerfScale
  congr 1
  ring

theorem fixe (hk : k ≠ 0) (i : Inp) (pi_f : ℝ) :
    PyRel (fun v v' => PerfScale k v.perf v'.perf) (fixeStraight i pi_f) (fixeStraight (bigger k i) pi_f) := by
  unfold fixeStraight
  refine (PyRel.of_eq rfl).bind fun _ s0 h => ?_; subst h
  refine (PyRel.of_eq rfl).bind fun _ s2 h => ?_; subst h
  refine (r3 i s2).bind fun s3 s3' h3 => ?_
  refine (r4 hk i h3).bind fun s4 s4' h4 => ?_
  refine (r13 i pi_f s2).bind fun s13 s13' h13 => ?_
  have e : s13'.m_f = k * s13.m_f ∧ s13'.Tt13 = s13.Tt13 ∧ s13'.Pt13 = s13.Pt13 := by unfold R13 at h13; subst h13; exact ⟨rfl, rfl, rfl⟩
  rw [e.1, e.2.1, e.2.2]
  refine (r19 i s0 _ _ _).bind fun s19 s19' h19 => ?_
  refine (r5 hk i h3 h4 h13).bind fun _ s5 h => ?_; subst h
  refine (r9 i s0 h3 _ _).bind fun s9 s9' h9 => ?_
  refine (rP hk i s0 h3 h4 _ h19 h9).bind fun p p' hp => ?_
  exact PyRel.ok hp

theorem calcule (hk : k ≠ 0) (i : Inp) (tm : ℝ) :
    PyRel (fun v v' => PerfScale k v.perf v'.perf ∧ v'.s13.pi_f = v.s13.pi_f) (calculeStraight i tm) (calculeStraight (bigger k i) tm) := by
  unfold calculeStraight
  refine (PyRel.of_eq rfl).bind fun _ s0 h => ?_; subst h
  refine (PyRel.of_eq rfl).bind fun _ s2 h => ?_; subst h
  refine (r3 i s2).bind fun s3 s3' h3 => ?_
  refine (r4 hk i h3).bind fun s4 s4' h4 => ?_
  refine (r4e hk i h3 h4).bind fun _ s4e h => ?_; subst h
  refine (r5c hk i tm h3 h4 s4e).bind fun s5 s5' h5 => ?_
  have e5 : s5'.Tt5 = s5.Tt5 ∧ s5'.Pt5 = s5.Pt5 := by unfold R5c at h5; subst h5; exact ⟨rfl, rfl⟩
  rw [e5.1, e5.2]
  refine (r9 i s0 h3 _ _).bind fun s9 s9' h9 => ?_
  refine (r13c hk i s2 h5).bind fun s13 s13' h13 => ?_
  have e : s13'.m_f = k * s13.m_f ∧ s13'.Tt13 = s13.Tt13 ∧ s13'.Pt13 = s13.Pt13 ∧ s13'.pi_f = s13.pi_f := by
    unfold R13c at h13; subst h13; exact ⟨rfl, rfl, rfl, rfl⟩
  rw [e.1, e.2.1, e.2.2.1]
  refine (r19 i s0 _ _ _).bind fun s19 s19' h19 => ?_
  refine (rP hk i s0 h3 h4 _ h19 h9).bind fun p p' hp => ?_
  exact PyRel.ok ⟨hp, e.2.2.2⟩

theorem script (hk : k ≠ 0) (lambda_ pi_c Tt4 pi_f m : ℝ) :
    PyRel (fun s s' : PropuBE.Printed => s' = { s with w_uc := k * s.w_uc, w_uf := k * s.w_uf, F := k * s.F })
      (PropuBE.calculs lambda_ pi_c Tt4 pi_f m) (PropuBE.calculs lambda_ pi_c Tt4 pi_f (k * m)) := by
  unfold PropuBE.calculs
  refine (PyRel.of_eq rfl).bind fun a0 _ h => ?_; subst h
  refine (PyRel.of_eq rfl).bind fun e0 _ h => ?_; subst h
  refine (PyRel.of_eq rfl).bind fun p0 _ h => ?_; subst h
  refine (PyRel.of_eq rfl).bind fun cp _ h => ?_; subst h
  refine (PyRel.of_eq rfl).bind fun cp_ _ h => ?_; subst h
  refine (PyRel.div (p := k) (q := 1) (c := k) one_ne_zero (mul_left_comm _ _ _) (by ring) (by ring)).bind fun m_f _ h => ?_; subst h
  refine (PyRel.of_eq rfl).bind fun ef _ h => ?_; subst h
  refine (PyRel.of_eq rfl).bind fun qf _ h => ?_; subst h
  refine (PyRel.div (p := k) (q := 1) (c := k) one_ne_zero rfl (by ring) (by ring)).bind fun m_c _ h => ?_; subst h
  refine (PyRel.of_eq rfl).bind fun ec _ h => ?_; subst h
  refine (PyRel.of_eq rfl).bind fun qc _ h => ?_; subst h
  refine (PyRel.of_eq rfl).bind fun kk _ h => ?_; subst h
  refine (PyRel.div1 hk (by ring) rfl).bind fun al _ h => ?_; subst h
  refine (PyRel.div1 hk (by ring) (by ring)).bind fun d _ h => ?_; subst h
  refine (PyRel.of_eq rfl).bind fun u _ h => ?_; subst h
  refine (PyRel.of_eq rfl).bind fun et _ h => ?_; subst h
  refine (PyRel.of_eq rfl).bind fun pi_t _ h => ?_; subst h
  refine (PyRel.of_eq rfl).bind fun Pt5 _ h => ?_; subst h
  refine (PyRel.of_eq rfl).bind fun n9 _ h => ?_; subst h
  refine (PyRel.of_eq rfl).bind fun e9 _ h => ?_; subst h
  refine (PyRel.of_eq rfl).bind fun t9 _ h => ?_; subst h
  refine (PyRel.of_eq rfl).bind fun c9 _ h => ?_; subst h
  refine (PyRel.of_eq rfl).bind fun M9 _ h => ?_; subst h
  refine (PyRel.of_eq rfl).bind fun T9 _ h => ?_; subst h
  refine (PyRel.of_eq rfl).bind fun A9 _ h => ?_; subst h
  refine (PyRel.of_eq rfl).bind fun n19 _ h => ?_; subst h
  refine (PyRel.of_eq rfl).bind fun e19 _ h => ?_; subst h
  refine (PyRel.of_eq rfl).bind fun t19 _ h => ?_; subst h
  refine (PyRel.of_eq rfl).bind fun c19 _ h => ?_; subst h
  refine (PyRel.of_eq rfl).bind fun M19 _ h => ?_; subst h
  refine (PyRel.of_eq rfl).bind fun T19 _ h => ?_; subst h
  refine (PyRel.of_eq rfl).bind fun A19 _ h => ?_; subst h
  refine (PyRel.div1 hk (by ring) rfl).bind fun Fs _ h => ?_; subst h
  refine (PyRel.div1 hk (by ring) (by ring)).bind fun mk _ h => ?_; subst h
  refine (PyRel.div1 hk (by ring) (by ring)).bind fun eth _ h => ?_; subst h
  refine (PyRel.div1 hk (by ring) (by ring)).bind fun ep _ h => ?_; subst h
  refine PyRel.ok ?_
  congr 1 <;> ring

end MassScale

/-- C124 (scripts): multiplying the mass flow by any `k ≠ 0` multiplies the powers and the thrust by `k` and changes neither the specific
thrust, the specific consumption, the efficiencies, the temperatures nor the fan pressure ratio; a failure stays the same failure. -/
theorem C124_scripts (k : ℝ) (hk : k ≠ 0) (lambda_ pi_c Tt4 x m : ℝ) :
    PropuBE.calculs lambda_ pi_c Tt4 x (k * m) =
      (fun s => { s with w_uc := k * s.w_uc, w_uf := k * s.w_uf, F := k * s.F }) <$> PropuBE.calculs lambda_ pi_c Tt4 x m ∧
    PropuBE.calculs_double lambda_ pi_c Tt4 (k * m) x = PropuBE.calculs_double lambda_ pi_c Tt4 m x := by
  constructor
  · rcases MassScale.script hk lambda_ pi_c Tt4 x m with ⟨a, b, h1, h2, rfl⟩ | ⟨e, h1, h2⟩ <;> rw [h1, h2] <;> rfl
  · rw [C73_double, C73_double]
    rcases MassScale.calcule hk ⟨lambda_, pi_c, Tt4, m, air, burnt⟩ x with ⟨v, v', h1, h2, hp, hf⟩ | ⟨e, h1, h2⟩
    · unfold bigger at h2
      rw [h1, h2, Py.ok_bind, Py.ok_bind, hp, hf]
    · unfold bigger at h2
      rw [h1, h2]

/-- C124 (objects): the same for both classes, any two gases, after any histories of calls. -/
theorem C124_objects (k : ℝ) (hk : k ≠ 0) (i : Inp) :
    (∀ (pi_f : ℝ) (v : FixeVals), fixeStraight i pi_f = .ok v → ∀ cs cs' : List FixeCall, ∃ p,
      (fixeRun i pi_f (cs ++ [.calculs_1_to_4, .calculs_5_to_9])).perf = some p ∧
      (fixeRun { i with m := k * i.m } pi_f (cs' ++ [.calculs_1_to_4, .calculs_5_to_9])).perf = some { p with F := k * p.F }) ∧
    (∀ (taux_meca : ℝ) (v : CalculeVals), calculeStraight i taux_meca = .ok v → ∀ cs cs' : List CalculeCall, ∃ p,
      (calculeRun i taux_meca (cs ++ [.calculs_1_to_4, .calculs_5_to_9])).perf = some p ∧
      (calculeRun { i with m := k * i.m } taux_meca (cs' ++ [.calculs_1_to_4, .calculs_5_to_9])).perf = some { p with F := k * p.F }) := by
  constructor
  · intro pi_f v hv cs cs'
    rcases MassScale.fixe hk i pi_f with ⟨v1, v', h1, h2, hp⟩ | ⟨e, h1, -⟩
    · have : v1 = v := by rw [hv] at h1; exact (Except.ok.inj h1).symm
      subst this
      exact ⟨v1.perf, (C72_fixe_recompute _ _ _ hv cs).1, by rw [← hp]; exact (C72_fixe_recompute _ _ _ h2 cs').1⟩
    · rw [hv] at h1; cases h1
  · intro tm v hv cs cs'
    rcases MassScale.calcule hk i tm with ⟨v1, v', h1, h2, hp, -⟩ | ⟨e, h1, -⟩
    · have : v1 = v := by rw [hv] at h1; exact (Except.ok.inj h1).symm
      subst this
      exact ⟨v1.perf, (C72_calcule_recompute _ _ _ hv cs).1, by rw [← hp]; exact (C72_calcule_recompute _ _ _ h2 cs').1⟩
    · rw [hv] at h1; cases h1

/-- `perfo` read as balances: thrust power over heat release, kinetic power over heat release, thrust without the fuel momentum. -/
theorem perfo_balance {i : Inp} {s0 : S0} {s3 : S3} {s4 : S4} {m_f : ℝ} {s19 : S19} {s9 : S9} {p : Perf}
    (h : valP i s0 s3 s4 m_f s19 s9 = .ok p) :
    p.F = s19.F_f + s9.F_c ∧ p.F ≠ 0 ∧ p.F_spe * i.m = p.F ∧ p.mk_spe * p.F = 10 * (10 ^ 6 * s4.m_k) ∧
    p.eta_th * (i.g_fuel.P_k * s4.m_k) =
      1 / 2 * (s3.m_c * ((1 + s4.alpha) * s9.V9 ^ 2 - s0.V0 ^ 2) + m_f * (s19.V19 ^ 2 - s0.V0 ^ 2)) ∧
    p.eta * (i.g_fuel.P_k * s4.m_k) = p.F * s0.V0 := by
  unfold valP at h
  simp only [show (1.0 : ℝ) = 1 by norm_num, show (0.5 : ℝ) = 1 / 2 by norm_num] at h
  obtain ⟨Fs, h1, h⟩ := Py.bind_inv h
  obtain ⟨k, h2, h⟩ := Py.bind_inv h
  obtain ⟨et, h3, h⟩ := Py.bind_inv h
  obtain ⟨ep, h4, h⟩ := Py.bind_inv h
  have hp := Except.ok.inj h
  subst hp
  obtain ⟨n1, rfl⟩ := Py.div_inv h1
  obtain ⟨n2, rfl⟩ := Py.div_inv h2
  obtain ⟨n3, rfl⟩ := Py.div_inv h3
  obtain ⟨n4, rfl⟩ := Py.div_inv h4
  have e7 : (10e6 : ℝ) = 10 * 10 ^ 6 := by norm_num
  refine ⟨rfl, n2, div_mul_cancel₀ _ n1, ?_, div_mul_cancel₀ _ n3, ?_⟩
  · simp only [e7]
    generalize s19.F_f + s9.F_c = F at n2 ⊢
    field_simp
  · show _ * _ * _ = _
    rw [mul_right_comm, div_mul_cancel₀ _ n3, mul_div_cancel₀ _ n4]

theorem val3_inv {i : Inp} {s2 : S2} {s3 : S3} (h : val3 i s2 = .ok s3) : i.lambda + 1 ≠ 0 ∧ s3.m_c = i.m / (i.lambda + 1) := by
  unfold val3 at h
  simp only [show (1.0 : ℝ) = 1 by norm_num] at h
  obtain ⟨m, h1, h⟩ := Py.bind_inv h
  obtain ⟨_, -, h⟩ := Py.bind_inv h
  obtain ⟨_, -, h⟩ := Py.bind_inv h
  obtain ⟨_, -, h⟩ := Py.bind_inv h
  have hp := Except.ok.inj h
  subst hp
  exact Py.div_inv h1

theorem val4_inv {i : Inp} {s3 : S3} {s4 : S4} (h : val4 i s3 = .ok s4) : s4.alpha * s3.m_c = s4.m_k := by
  unfold val4 at h
  obtain ⟨_, -, h⟩ := Py.bind_inv h
  obtain ⟨_, -, h⟩ := Py.bind_inv h
  obtain ⟨_, -, h⟩ := Py.bind_inv h
  obtain ⟨_, h1, h⟩ := Py.bind_inv h
  have hp := Except.ok.inj h
  subst hp
  obtain ⟨n, rfl⟩ := Py.div_inv h1
  exact div_mul_cancel₀ _ n

theorem val13_inv {i : Inp} {p : ℝ} {s2 : S2} {s : S13} (h : val13 i p s2 = .ok s) : s.m_f = i.lambda * i.m / (i.lambda + 1) := by
  unfold val13 at h
  simp only [show (1.0 : ℝ) = 1 by norm_num] at h
  obtain ⟨m, h1, h⟩ := Py.bind_inv h
  obtain ⟨_, -, h⟩ := Py.bind_inv h
  obtain ⟨_, -, h⟩ := Py.bind_inv h
  obtain ⟨_, -, h⟩ := Py.bind_inv h
  have hp := Except.ok.inj h
  subst hp
  rw [mul_comm i.lambda]
  exact (Py.div_inv h1).2

theorem val13c_inv {i : Inp} {s2 : S2} {s5 : S5c} {s : S13c} (h : val13c i s2 s5 = .ok s) : s.m_f = i.lambda * i.m / (i.lambda + 1) := by
  unfold val13c at h
  simp only [show (1.0 : ℝ) = 1 by norm_num] at h
  obtain ⟨m, h1, h⟩ := Py.bind_inv h
  obtain ⟨_, -, h⟩ := Py.bind_inv h
  obtain ⟨_, -, h⟩ := Py.bind_inv h
  obtain ⟨_, -, h⟩ := Py.bind_inv h
  obtain ⟨_, -, h⟩ := Py.bind_inv h
  have hp := Except.ok.inj h
  subst hp
  exact (Py.div_inv h1).2

theorem val19_inv {i : Inp} {s0 : S0} {m T P : ℝ} {s : S19} (h : val19 i s0 m T P = .ok s) : s.F_f = m * (s.V19 - s0.V0) := by
  unfold val19 at h
  obtain ⟨_, -, h⟩ := Py.bind_inv h
  obtain ⟨_, -, h⟩ := Py.bind_inv h
  obtain ⟨_, -, h⟩ := Py.bind_inv h
  have hp := Except.ok.inj h
  subst hp
  rfl

theorem val9_inv {i : Inp} {s0 : S0} {s3 : S3} {T P : ℝ} {s : S9} (h : val9 i s0 s3 T P = .ok s) : s.F_c = s3.m_c * (s.V9 - s0.V0) := by
  unfold val9 at h
  obtain ⟨_, -, h⟩ := Py.bind_inv h
  obtain ⟨_, -, h⟩ := Py.bind_inv h
  obtain ⟨_, -, h⟩ := Py.bind_inv h
  have hp := Except.ok.inj h
  subst hp
  rfl

/-- What the performances `p` of an engine say, and what they should say: captured air flow `m` split into core `m_c` and bypass `m_f`,
fuel flow `m_k`, flight velocity `V0`, jets `V9` (core and fuel) and `V19` (bypass), heat of combustion `P_k`. -/
structure Balanced (m m_c m_f m_k V0 V9 V19 P_k : ℝ) (p : Perf) : Prop where
  split : m_c + m_f = m
  specific : p.F_spe * m = p.F
  overall : p.eta * (P_k * m_k) = p.F * V0
  product : p.eta = p.eta_th * p.eta_prop
  thermal : p.eta_th * (P_k * m_k) = Spec.Engine.kineticPower m V0 [(m_c + m_k, V9), (m_f, V19)]
  /-- the thrust is the momentum balance, less the momentum of the burnt fuel -/
  thrust : p.F = Spec.Engine.thrust m V0 [(m_c + m_k, V9), (m_f, V19)] - m_k * V9
  /-- the consumption is ten times the fuel flow over the thrust in grams per kilonewton and second -/
  consumption : p.F ≠ 0 ∧ p.mk_spe = 10 * ((10 ^ 3 * m_k) / (p.F / 10 ^ 3))

theorem balanced_of {i : Inp} {s0 : S0} {s2 : S2} {s3 : S3} {s4 : S4} {m_f : ℝ} {s19 : S19} {s9 : S9} {p : Perf} {T P T' P' : ℝ}
    (h3 : val3 i s2 = .ok s3) (h4 : val4 i s3 = .ok s4) (hm : m_f = i.lambda * i.m / (i.lambda + 1))
    (h19 : val19 i s0 m_f T P = .ok s19) (h9 : val9 i s0 s3 T' P' = .ok s9) (hP : valP i s0 s3 s4 m_f s19 s9 = .ok p) :
    Balanced i.m s3.m_c m_f s4.m_k s0.V0 s9.V9 s19.V19 i.g_fuel.P_k p := by
  obtain ⟨b1, b2, b3, b4, b5, b6⟩ := perfo_balance hP
  obtain ⟨n, e3⟩ := val3_inv h3
  have e4 := val4_inv h4
  have split : s3.m_c + m_f = i.m := by rw [e3, hm]; field_simp; ring
  refine ⟨split, b3, b6, ?_, ?_, ?_, b2, ?_⟩
  · unfold valP at hP
    obtain ⟨_, -, hP⟩ := Py.bind_inv hP
    obtain ⟨_, -, hP⟩ := Py.bind_inv hP
    obtain ⟨_, -, hP⟩ := Py.bind_inv hP
    obtain ⟨_, -, hP⟩ := Py.bind_inv hP
    have hp := Except.ok.inj hP
    subst hp
    rfl
  · rw [b5]
    simp only [Spec.Engine.kineticPower, List.map_cons, List.map_nil, List.sum_cons, List.sum_nil]
    rw [← split, ← e4]
    ring
  · rw [b1, val19_inv h19, val9_inv h9]
    simp only [Spec.Engine.thrust, List.map_cons, List.map_nil, List.sum_cons, List.sum_nil]
    rw [← split]
    ring
  · rw [eq_comm, show 10 * (10 ^ 3 * s4.m_k / (p.F / 10 ^ 3)) = 10 * (10 ^ 6 * s4.m_k) / p.F by field_simp, ← b4,
      mul_div_cancel_right₀ _ b2]

/-- C125 (balances, partial: the fuel momentum is missing in the thrust and the consumption is ten times too large): for both classes. -/
theorem C125_balance_partial (i : Inp) :
    (∀ (pi_f : ℝ) (v : FixeVals), fixeStraight i pi_f = .ok v →
      Balanced i.m v.base.s3.m_c v.s13.m_f v.base.s4.m_k v.base.s0.V0 v.s9.V9 v.s19.V19 i.g_fuel.P_k v.perf) ∧
    (∀ (taux_meca : ℝ) (v : CalculeVals), calculeStraight i taux_meca = .ok v →
      Balanced i.m v.base.s3.m_c v.s13.m_f v.base.s4.m_k v.base.s0.V0 v.s9.V9 v.s19.V19 i.g_fuel.P_k v.perf) := by
  constructor
  · intro pi_f v h
    have V := fixeOk_of h
    exact balanced_of V.base.h3 V.base.h4 (val13_inv V.h13) V.h19 V.h9 V.hP
  · intro tm v h
    have V := calculeOk_of h
    exact balanced_of V.base.h3 V.base.h4 (val13c_inv V.h13) V.h19 V.h9 V.hP

/-- C125: the consumption `show_perfo` prints with the unit g/kN/s is never the consumption in that unit (unless no fuel is burnt); the
thrust is never the thrust of the momentum balance (unless no fuel is burnt or the core jet is at rest). -/
theorem C125_consumption_false (i : Inp) (pi_f : ℝ) (v : FixeVals) (h : fixeStraight i pi_f = .ok v) (hk : v.base.s4.m_k ≠ 0) :
    v.perf.mk_spe ≠ (10 ^ 3 * v.base.s4.m_k) / (v.perf.F / 10 ^ 3) ∧
    (v.s9.V9 ≠ 0 → v.perf.F ≠ Spec.Engine.thrust i.m v.base.s0.V0
      [(v.base.s3.m_c + v.base.s4.m_k, v.s9.V9), (v.s13.m_f, v.s19.V19)]) := by
  have B := (C125_balance_partial i).1 pi_f v h
  constructor
  · rw [B.consumption.2]
    intro e
    have : (10 ^ 3 * v.base.s4.m_k) / (v.perf.F / 10 ^ 3) ≠ 0 :=
      div_ne_zero (mul_ne_zero (by norm_num) hk) (div_ne_zero B.consumption.1 (by norm_num))
    apply this
    linarith only [e]
  · intro h9 e
    have := B.thrust
    rw [← e] at this
    exact mul_ne_zero hk h9 (by linarith only [this])

/-- cycles that run: the hypotheses of C124 and C125 -/
example : (∃ v, fixeStraight inpW pifW = .ok v) ∧ (∃ v, calculeStraight inpW 0.2 = .ok v) ∧
    ∃ s, PropuBE.calculs 5 picW 1600 pifW 6 = .ok s := ⟨fixeW, calculeW, scriptW⟩

end Aerokit.Props
