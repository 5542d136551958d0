import Verif.Model.ShockModel
import Verif.Props.EulerRH
import Verif.Lemmas.Engine
import Verif.Props.EulerModes

/-! # Property C142 : the shock impact model of `examples/stability/shock.py` -/

namespace Aerokit.Props
open LinOperator NumSpectral Model1D Euler1D Spec ShockWave Isentropic

variable {n : ℕ}

/-- the state at a point of an array state -/
def ptOf (q : StateV n) (i : Fin n) : State := ⟨q.rho i, q.u i, q.p i, q.gamma⟩

theorem each_ok {α : Type} {f : Fin n → Py α} {g : Fin n → α} (h : ∀ i, f i = .ok (g i)) : ShockModel.each f = .ok g := by
  unfold ShockModel.each
  have h' : ∀ i, ∃ a, f i = .ok a := fun i => ⟨_, h i⟩
  rw [dif_pos h']
  congr 1
  funext i
  exact Except.ok.inj ((h' i).choose_spec.symm.trans (h i))

theorem npIndex_zero (hn : 2 ≤ n) (v : Fin n → ℝ) : npIndex v 0 = .ok (v ⟨0, by omega⟩) := by
  unfold npIndex
  simp only [lt_self_iff_false, if_false]
  rw [dif_pos (by omega)]
  rfl

theorem npIndex_last (hn : 2 ≤ n) (v : Fin n → ℝ) : npIndex v (-1) = .ok (v ⟨n - 1, by omega⟩) := by
  unfold npIndex
  simp only [show ((-1:ℤ) < 0) from by norm_num, if_true]
  rw [dif_pos (by omega)]
  congr 2
  simp only [Fin.mk.injEq]
  omega

theorem xv_first (hn : 2 ≤ n) (a b : ℝ) : xv n a b ⟨0, by omega⟩ = a := by
  unfold xv Welfert.node; simp

theorem xv_last (hn : 2 ≤ n) (a b : ℝ) : xv n a b ⟨n - 1, by omega⟩ = b := by
  have h := xv_rev hn a b ⟨0, by omega⟩
  rw [xv_first hn] at h
  have e : (⟨0, by omega⟩ : Fin n).rev = ⟨n - 1, by omega⟩ := by
    ext; simp [Fin.rev]
  rw [e] at h
  linarith

/-- the state of given total quantities and velocity -/
theorem from_u (u : ℝ) (hu : u ^ 2 < 7 * ShockModel.rttot) :
    ∃ s, State.compute_from_pt_rtt_u ⟨1, 0, 1, ShockModel.gam⟩ ShockModel.ptot ShockModel.rttot u = .ok s ∧
      s.Valid ∧ s.gamma = DefaultGas.gamma0 ∧ s.u = u ∧ s.Ptot = .ok ShockModel.ptot ∧ s.rTtot = .ok ShockModel.rttot := by
  have hg : ShockModel.gam = 7/5 := by unfold ShockModel.gam; norm_num
  have hr : 0 < ShockModel.rttot := by unfold ShockModel.rttot; norm_num
  have hp : 0 < ShockModel.ptot := by unfold ShockModel.ptot; norm_num
  obtain ⟨s, h1, h2, h3, h4, h5⟩ := C54_u_partial ⟨1, 0, 1, ShockModel.gam⟩ ShockModel.ptot ShockModel.rttot u
    (by show 1 < ShockModel.gam; rw [hg]; norm_num) hp hr
    (by show u ^ 2 < 2 * ShockModel.gam / (ShockModel.gam - 1) * _; rw [hg]; norm_num; linarith)
  have hw : withGamma s ShockModel.gam = s := by
    have : ShockModel.gam = DefaultGas.gamma0 := by rw [hg, Isentropic.gamma0_eq]
    rw [this, ← h2]; rfl
  simp only [hw] at h3 h4
  refine ⟨s, h1, ?_, h2, h5, h3, h4⟩
  -- positivity
  unfold State.compute_from_pt_rtt_u at h1
  simp only [hg] at h1
  obtain ⟨k, hk, h1⟩ := Py.bind_inv h1
  obtain ⟨-, ek⟩ := Py.div_inv hk
  obtain ⟨c, hc, h1⟩ := Py.bind_inv h1
  obtain ⟨-, ec⟩ := Py.div_inv hc
  obtain ⟨w, hw', h1⟩ := Py.bind_inv h1
  have ew := Py.pow_inv hw'
  obtain ⟨ps, hps, h1⟩ := Py.bind_inv h1
  obtain ⟨-, eps⟩ := Py.div_inv hps
  obtain ⟨rho, hrho, h1⟩ := Py.bind_inv h1
  obtain ⟨-, erho⟩ := Py.div_inv hrho
  have hs := (Except.ok.inj h1).symm
  have hk' : k = 7/2 := by rw [ek]; norm_num
  have hden : 0 < k * ShockModel.rttot - 0.5 * u ^ 2 := by rw [hk']; norm_num; linarith
  have hc0 : 0 ≤ c := by rw [ec]; exact div_nonneg (by positivity) hden.le
  have hw0 : 0 < w := by rw [ew]; exact Real.rpow_pos_of_pos (by norm_num; linarith) _
  have hps0 : 0 < ps := by rw [eps]; positivity
  have hrho0 : 0 < rho := by
    rw [erho]
    refine div_pos (by positivity) ?_
    norm_num; linarith
  rw [hs]
  exact ⟨hrho0, hps0, Isentropic.one_lt_gamma0⟩

/-- velocity behind the shock -/
noncomputable def u1 (M1 : ℝ) : ℝ := M1 * Real.sqrt (7/5 * ShockModel.rttot / tt M1 (7/5))

theorem rttot_pos : 0 < ShockModel.rttot := by unfold ShockModel.rttot; norm_num

theorem u1_sq (M1 : ℝ) : u1 M1 ^ 2 = M1 ^ 2 * (7/5 * ShockModel.rttot / tt M1 (7/5)) := by
  have := tt_pos (M := M1) (show (1:ℝ) < 7/5 by norm_num)
  have := rttot_pos
  unfold u1; rw [mul_pow, Real.sq_sqrt (by positivity)]

theorem u1_lt (M1 : ℝ) : u1 M1 ^ 2 < 7 * ShockModel.rttot := by
  rw [u1_sq]
  have h1 := tt_pos (M := M1) (show (1:ℝ) < 7/5 by norm_num)
  have h2 := rttot_pos
  rw [← mul_div_assoc, div_lt_iff₀ h1]
  have : tt M1 (7/5) = 1 + 1/5 * M1 ^ 2 := by unfold tt; ring
  rw [this]
  nlinarith

theorem velocity_ok (hn : 2 ≤ n) {L : ℝ} (hL : 0 < L) (M1 : ℝ) :
    ShockModel.velocity M1 (xv n 0 L) = .ok fun i => u1 M1 * (1 - xv n 0 L i / L) := by
  have h1 := tt_pos (M := M1) (show (1:ℝ) < 7/5 by norm_num)
  have h2 := rttot_pos
  have hv : Isentropic.Velocity_MachTt M1 ShockModel.rttot 1.0 DefaultGas.gamma0 = .ok (u1 M1) := by
    unfold Isentropic.Velocity_MachTt
    rw [Isentropic.gamma0_eq, TtTs_Mach_ok, Py.ok_bind, Py.div_ok h1.ne', Py.ok_bind,
      Py.sqrt_ok (div_nonneg (by norm_num; positivity) h1.le), Py.ok_bind]
    unfold u1
    norm_num
  unfold ShockModel.velocity
  rw [hv, Py.ok_bind, npIndex_last hn, Py.ok_bind, npIndex_zero hn, Py.ok_bind, xv_first hn, xv_last hn]
  refine each_ok fun i => ?_
  rw [Py.div_ok (by linarith)]
  congr 1
  rw [show (0:ℝ) - L = -L by ring, div_neg, eq_comm]
  have : L ≠ 0 := hL.ne'
  field_simp
  ring

theorem tail_ok (q : StateV n) (d : Option ℝ) (s : Obj n) :
    (do
      Euler1D.set_basestate (some q)
      let l ← onHeap fun h => (.ok (h.alloc ⟨some "RH", [("dM0dx", d)]⟩).1, (h.alloc ⟨some "RH", [("dM0dx", d)]⟩).2)
      let r ← onHeap fun h => (.ok (h.alloc ⟨some "sym", []⟩).1, (h.alloc ⟨some "sym", []⟩).2)
      Euler1D.set_BC (.dict l) (.dict r) : Meth (Obj n) Unit) s
    = (.ok (), withDictSym { s with
        basestate := some q
        nvar := some 3
        heap := (s.heap.alloc ⟨some "RH", [("dM0dx", d)]⟩).2 } s.heap.next) := by
  have e1 : Euler1D.set_basestate (some q) s = (.ok (), { s with basestate := some q, nvar := some 3 }) := rfl
  rw [Meth.bind_ok e1]
  obtain ⟨s1, h1⟩ : ∃ s1 : Obj n, s1 = { s with basestate := some q, nvar := some 3 } := ⟨_, rfl⟩
  rw [← h1]
  have e2 : (onHeap fun h => (.ok (h.alloc ⟨some "RH", [("dM0dx", d)]⟩).1, (h.alloc ⟨some "RH", [("dM0dx", d)]⟩).2) : Meth (Obj n) ℕ) s1
      = (.ok s.heap.next, { s1 with heap := (s.heap.alloc ⟨some "RH", [("dM0dx", d)]⟩).2 }) := by rw [h1]; rfl
  rw [Meth.bind_ok e2]
  obtain ⟨s2, h2⟩ : ∃ s2 : Obj n, s2 = { s1 with heap := (s.heap.alloc ⟨some "RH", [("dM0dx", d)]⟩).2 } := ⟨_, rfl⟩
  rw [← h2]
  have e3 : (onHeap fun h => (.ok (h.alloc ⟨some "sym", []⟩).1, (h.alloc ⟨some "sym", []⟩).2) : Meth (Obj n) ℕ) s2
      = (.ok (s.heap.next + 1), { s2 with heap := (s2.heap.alloc ⟨some "sym", []⟩).2 }) := by rw [h2]; rfl
  rw [Meth.bind_ok e3, set_BC_eq]
  have e4 : check_BCs BC_names (.dict s.heap.next) (.dict (s.heap.next + 1)) (s2.heap.alloc ⟨some "sym", []⟩).2
      = (.ok (s.heap.next, s.heap.next + 1), (s2.heap.alloc ⟨some "sym", []⟩).2) := by
    unfold check_BCs
    have c1 : check_BC BC_names (.dict s.heap.next) (s2.heap.alloc ⟨some "sym", []⟩).2 = (.ok s.heap.next, (s2.heap.alloc ⟨some "sym", []⟩).2) := by
      rw [h2]; simp [check_BC, Heap.alloc, BC_names]
    have c2 : check_BC BC_names (.dict (s.heap.next + 1)) (s2.heap.alloc ⟨some "sym", []⟩).2 = (.ok (s.heap.next + 1), (s2.heap.alloc ⟨some "sym", []⟩).2) := by
      rw [h2]; simp [check_BC, Heap.alloc, BC_names]
    rw [Meth.bind_ok c1, Meth.bind_ok c2]; rfl
  simp only []
  rw [e4]
  rw [h2, h1]
  rfl

/-- the object built by the constructor -/
theorem shock_new_ok (hn : 2 ≤ n) {L : ℝ} (hL : 0 < L) {M1 M0 dM0dx : Option ℝ} {m : ℝ} (hm : ShockModel.machOf M1 M0 = .ok m) (hp : Heap) :
    ∃ q : StateV n, q.gamma = DefaultGas.gamma0 ∧
      (∀ i, q.u i = u1 m * (1 - xv n 0 L i / L)) ∧
      (∀ i, (ptOf q i).Valid ∧ (ptOf q i).Ptot = .ok ShockModel.ptot ∧ (ptOf q i).rTtot = .ok ShockModel.rttot) ∧
      ∃ s : Obj n, EInv 0 L s ∧ s.basestate = some q ∧ hp.next < s.heap.next ∧
        s.heap.at' hp.next = ⟨some "RH", [("dM0dx", dM0dx)]⟩ ∧
        ShockModel.new n L M1 M0 dM0dx hp = .ok (withDictSym s hp.next) := by
  have hx : ∀ i, 0 ≤ 1 - xv n 0 L i / L ∧ 1 - xv n 0 L i / L ≤ 1 := by
    intro i
    have mono := (xv_strictMono (n := n) hn hL).monotone
    have a1 := mono (show (⟨0, by omega⟩ : Fin n) ≤ i from Nat.zero_le _)
    have a2 := mono (show i ≤ (⟨n - 1, by omega⟩ : Fin n) from by show (i:ℕ) ≤ n - 1; have := i.2; omega)
    rw [xv_first hn] at a1
    rw [xv_last hn] at a2
    constructor
    · rw [sub_nonneg, div_le_one hL]; exact a2
    · have := div_nonneg a1 hL.le; linarith
  have hu : ∀ i : Fin n, (u1 m * (1 - xv n 0 L i / L)) ^ 2 < 7 * ShockModel.rttot := by
    intro i
    obtain ⟨h1, h2⟩ := hx i
    refine lt_of_le_of_lt ?_ (u1_lt m)
    rw [mul_pow]
    refine mul_le_of_le_one_right (sq_nonneg _) ?_
    exact pow_le_one₀ h1 h2
  choose st h1 h2 h3 h4 h5 h6 using fun i : Fin n => from_u _ (hu i)
  obtain ⟨q, hq⟩ : ∃ q : StateV n, q = ⟨fun i => (st i).rho, fun i => u1 m * (1 - xv n 0 L i / L), fun i => (st i).p, DefaultGas.gamma0⟩ := ⟨_, rfl⟩
  have hb : ShockModel.baseOf (fun i => u1 m * (1 - xv n 0 L i / L)) = .ok q := by
    unfold ShockModel.baseOf
    rw [each_ok h1, Py.ok_bind, hq]; rfl
  have hpt : ∀ i, ptOf q i = st i := by
    intro i
    rw [hq]
    unfold ptOf
    simp only
    rw [← h4 i, ← h3 i]
  have hI : EInv 0 L (Euler1D.init n (some 0.0) (some L) none hp) :=
    ⟨by rw [show (0.0:ℝ) = 0 by norm_num]; exact inv_mk (N := n) 0 L, .inr ⟨rfl, rfl⟩⟩
  obtain ⟨d, hd, hdI⟩ := x_ok hn hI
  refine ⟨q, by rw [hq], by rw [hq]; exact fun _ => rfl, fun i => by rw [hpt i]; exact ⟨h2 i, h5 i, h6 i⟩,
    { (Euler1D.init n (some 0.0) (some L) none hp) with
      diffop := d
      basestate := some q
      nvar := some 3
      heap := (hp.alloc ⟨some "RH", [("dM0dx", dM0dx)]⟩).2 }, ⟨hdI, .inl rfl⟩, rfl, ?_, ?_, ?_⟩
  · show hp.next < hp.next + 1; omega
  · simp [Heap.alloc]
  · unfold ShockModel.new ShockModel.body
    rw [hm, Meth.bind_ok (Meth.lift_apply _ _), Meth.bind_ok hd, velocity_ok hn hL, Meth.bind_ok (Meth.lift_apply _ _), hb,
      Meth.bind_ok (Meth.lift_apply _ _)]
    rw [tail_ok]
    rfl

/-- the downstream Mach number `m` meant by the two optional arguments: the one given, else that behind a normal
shock of Mach number `M0` (`γ = 1.4`) -/
def Downstream (M1 M0 : Option ℝ) (m : ℝ) : Prop :=
  M1 = some m ∨ (M1 = none ∧ ∃ M, M0 = some M ∧ ShockWave.downstream_Mn M 1.4 = .ok m)

theorem g14 : (1.4:ℝ) = DefaultGas.gamma0 := by rw [gamma0_eq]; norm_num

theorem machOf_ok {M1 M0 : Option ℝ} {m : ℝ} (h : Downstream M1 M0 m) : ShockModel.machOf M1 M0 = .ok m := by
  unfold ShockModel.machOf
  rcases h with rfl | ⟨rfl, M, rfl, h⟩
  · rfl
  · rw [g14] at h; exact h

/-- sound velocity from the total temperature -/
theorem cs_of_rtt {s : State} (h : s.Valid) (hg : s.gamma = DefaultGas.gamma0) {T : ℝ} (ht : s.rTtot = .ok T) :
    s.cs = Real.sqrt (7/5 * T - 1/5 * s.u ^ 2) ∧ 0 < 7/5 * T - 1/5 * s.u ^ 2 := by
  have h1 := h.rho
  have h2 := h.p
  rw [h.rTtot] at ht
  have ht := Except.ok.inj ht
  rw [hg, gamma0_eq] at ht
  have e : 7/5 * T - 1/5 * s.u ^ 2 = 7/5 * s.p / s.rho := by rw [← ht]; ring
  constructor
  · rw [e]; unfold State.cs; rw [hg, gamma0_eq]
  · rw [e]; positivity

theorem mach_mono {c u v : ℝ} (hu : 0 ≤ u) (huv : u < v) (hc : 0 < c - 1/5 * v ^ 2) :
    u / Real.sqrt (c - 1/5 * u ^ 2) < v / Real.sqrt (c - 1/5 * v ^ 2) := by
  refine div_lt_div₀ huv ?_ (by linarith) (Real.sqrt_pos.2 hc)
  exact Real.sqrt_le_sqrt (by nlinarith)

theorem u1_cs (m : ℝ) : u1 m / Real.sqrt (7/5 * ShockModel.rttot - 1/5 * u1 m ^ 2) = m := by
  have h1 := tt_pos (M := m) (show (1:ℝ) < 7/5 by norm_num)
  have h2 := rttot_pos
  have e : 7/5 * ShockModel.rttot - 1/5 * u1 m ^ 2 = 7/5 * ShockModel.rttot / tt m (7/5) := by
    rw [u1_sq, eq_div_iff h1.ne']
    have : tt m (7/5) = 1 + 1/5 * m ^ 2 := by unfold tt; ring
    rw [this] at h1 ⊢
    field_simp
    ring
  rw [e]
  unfold u1
  rw [mul_div_assoc, div_self (Real.sqrt_pos.2 (by positivity)).ne', mul_one]

/-- C142, base flow: for every number of points, length and downstream Mach number, given or computed from the upstream
one, the constructor returns an object whose base state is, at every point, an admissible state with the total pressure
180000 and `r Tt = 83500`; the velocity decreases linearly with the abscissa to zero at the wall `x = length`; the Mach
number is the downstream one at the shock and, if this is positive, decreases strictly from one point to the next, down
to 0. -/
theorem C142_base (hn : 2 ≤ n) (L : ℝ) (hL : 0 < L) (M1 M0 dM0dx : Option ℝ) (m : ℝ) (hm : Downstream M1 M0 m) (hp : Heap) :
    ∃ (s s' : Obj n) (q : StateV n) (X mach : Fin n → ℝ), ShockModel.new n L M1 M0 dM0dx hp = .ok s ∧ s.basestate = some q ∧
      q.gamma = 1.4 ∧ Euler1D.x s = (.ok X, s') ∧ X ⟨0, by omega⟩ = 0 ∧ X ⟨n - 1, by omega⟩ = L ∧ StrictMono X ∧
      (∀ i, 0 < q.rho i ∧ 0 < q.p i ∧ (ptOf q i).Ptot = .ok 180000 ∧ (ptOf q i).rTtot = .ok 83500 ∧ (ptOf q i).Mach = .ok (mach i) ∧
        q.u i = q.u ⟨0, by omega⟩ * (1 - X i / L)) ∧
      mach ⟨0, by omega⟩ = m ∧ mach ⟨n - 1, by omega⟩ = 0 ∧ q.u ⟨n - 1, by omega⟩ = 0 ∧ (0 < m → StrictAnti mach) := by
  obtain ⟨q, hg, hu, hq, s, hI, hs, -, -, hnew⟩ := shock_new_ok hn hL (dM0dx := dM0dx) (machOf_ok hm) hp
  obtain ⟨d, hx, -⟩ := x_ok hn (s := withDictSym s hp.next) (a := 0) (b := L) ⟨hI.diff, hI.nvar⟩
  have hmono := xv_strictMono (n := n) hn hL
  have u0 : q.u ⟨0, by omega⟩ = u1 m := by rw [hu, xv_first hn]; simp
  have ul : q.u ⟨n - 1, by omega⟩ = 0 := by rw [hu, xv_last hn, div_self hL.ne']; simp
  have hmach : ∀ i, (ptOf q i).Mach = .ok (q.u i / Real.sqrt (7/5 * ShockModel.rttot - 1/5 * q.u i ^ 2)) := by
    intro i
    rw [(hq i).1.Mach, (cs_of_rtt (hq i).1 hg (hq i).2.2).1]
    rfl
  refine ⟨withDictSym s hp.next, _, q, xv n 0 L, fun i => q.u i / Real.sqrt (7/5 * ShockModel.rttot - 1/5 * q.u i ^ 2),
    hnew, hs, hg.trans g14.symm, hx, xv_first hn _ _, xv_last hn _ _, hmono, fun i => ⟨(hq i).1.rho, (hq i).1.p, ?_, ?_, hmach i, ?_⟩, ?_, ?_, ul, ?_⟩
  · rw [(hq i).2.1]; congr 1; unfold ShockModel.ptot; norm_num
  · rw [(hq i).2.2]; congr 1; unfold ShockModel.rttot; norm_num
  · rw [u0, hu]
  · simp only [u0]; exact u1_cs m
  · simp only [ul, zero_div]
  · intro hm0 i j hij
    have hu1 : 0 < u1 m := by
      have h1 := tt_pos (M := m) (show (1:ℝ) < 7/5 by norm_num)
      have h2 := rttot_pos
      unfold u1
      exact mul_pos hm0 (Real.sqrt_pos.2 (by positivity))
    have hj : xv n 0 L j ≤ L := by
      have := hmono.monotone (show j ≤ (⟨n - 1, by omega⟩ : Fin n) from by show (j:ℕ) ≤ n - 1; have := j.2; omega)
      rwa [xv_last hn] at this
    have hlt : q.u j < q.u i := by
      rw [hu, hu]
      refine mul_lt_mul_of_pos_left ?_ hu1
      have := div_lt_div_of_pos_right (hmono hij) hL
      linarith
    refine mach_mono ?_ hlt (cs_of_rtt (hq i).1 hg (hq i).2.2).2
    rw [hu]
    refine mul_nonneg hu1.le ?_
    rw [sub_nonneg, div_le_one hL]
    exact hj

/-- the flow in front of the shock found from the flow behind it -/
theorem upstream_mach {s : State} (h : s.Valid) (hg : s.gamma = DefaultGas.gamma0) {M : ℝ} (hM : 1 ≤ M)
    (hm : s.u / s.cs = Real.sqrt (mn2 M DefaultGas.gamma0)) :
    ∃ up, s.state_RH = .ok up ∧ up.Valid ∧ up.gamma = s.gamma ∧ up.Mach = .ok M ∧ Spec.RankineHugoniot 1.4 (flow up) (flow s) ∧
      up.state_RH = .ok s := by
  have g1 := one_lt_gamma0
  have hd := dom_of_one_le g1 hM
  have hp := mn2_pos g1 hd
  have hd' := mn2_dom g1 hd
  have hu : s.u ≠ 0 := by
    intro e
    rw [e, zero_div] at hm
    exact (Real.sqrt_pos.2 hp).ne' hm.symm
  have hupos : 0 < s.u := by
    have : 0 < s.u / s.cs := by rw [hm]; exact Real.sqrt_pos.2 hp
    exact (div_pos_iff_of_pos_right h.cs_pos).1 this
  obtain ⟨up, h1, h2, h3, h4, h5⟩ := C55_RH s h _ h.Mach (by rw [hm, hg]; exact hd')
  have h1' := h1
  rw [state_RH_ok h hu] at h1'
  have hup := (Except.ok.inj h1').symm
  rw [hm, hg] at hup
  have r1 := rhr_mn2 g1 (show M ≠ 0 by linarith) hd
  have p1 := psr_mn2 g1 hd
  have rp := rhr_pos g1 (M := M) (show M ≠ 0 by linarith)
  have pp := psr_pos g1 hd
  have rp' : 0 < rhr (Real.sqrt (mn2 M DefaultGas.gamma0)) DefaultGas.gamma0 := by
    rcases lt_or_ge 0 (rhr (Real.sqrt (mn2 M DefaultGas.gamma0)) DefaultGas.gamma0) with hh | hh
    · exact hh
    · nlinarith
  have pp' : 0 < psr (Real.sqrt (mn2 M DefaultGas.gamma0)) DefaultGas.gamma0 := by
    rcases lt_or_ge 0 (psr (Real.sqrt (mn2 M DefaultGas.gamma0)) DefaultGas.gamma0) with hh | hh
    · exact hh
    · nlinarith
  have key : (up.u / up.cs) ^ 2 = M ^ 2 := by
    rw [mach_sq h2]
    have e1 : s.rho * s.u ^ 2 / (s.gamma * s.p) = mn2 M DefaultGas.gamma0 := by
      rw [← mach_sq h, hm, Real.sq_sqrt hp.le]
    obtain ⟨R, hR⟩ : ∃ R, R = rhr (Real.sqrt (mn2 M DefaultGas.gamma0)) DefaultGas.gamma0 := ⟨_, rfl⟩
    obtain ⟨P, hP⟩ : ∃ P, P = psr (Real.sqrt (mn2 M DefaultGas.gamma0)) DefaultGas.gamma0 := ⟨_, rfl⟩
    rw [← hR] at hup rp' r1
    rw [← hP] at hup pp' p1
    have e2 : up.rho * up.u ^ 2 / (up.gamma * up.p) = s.rho * s.u ^ 2 / (s.gamma * s.p) / (R * P) := by
      rw [hup, hg]
      have := h.p; have := h.rho
      simp only
      have : (0:ℝ) < DefaultGas.gamma0 := by linarith
      field_simp
    rw [e2, e1]
    have e3 : R * P * (rhr M DefaultGas.gamma0 * psr M DefaultGas.gamma0) = 1 := by
      calc R * P * (rhr M DefaultGas.gamma0 * psr M DefaultGas.gamma0) = (R * rhr M DefaultGas.gamma0) * (P * psr M DefaultGas.gamma0) := by ring
        _ = 1 := by rw [r1, p1, one_mul]
    have e4 : mn2 M DefaultGas.gamma0 * (rhr M DefaultGas.gamma0 * psr M DefaultGas.gamma0) = M ^ 2 := by
      unfold mn2 rhr psr
      rw [gamma0_eq]
      have c1 : (0:ℝ) < 7 * M ^ 2 - 1 := by nlinarith
      have c2 : (0:ℝ) < 5 + M ^ 2 := by positivity
      have f1 : (1 + (7/5 - 1) / 2 * M ^ 2) / (7/5 * M ^ 2 - (7/5 - 1) / 2) = (5 + M ^ 2) / (7 * M ^ 2 - 1) := by
        rw [div_eq_div_iff (by linarith) c1.ne']; ring
      have f2 : (7/5 + 1) * M ^ 2 / (2 + (7/5 - 1) * M ^ 2) = 6 * M ^ 2 / (5 + M ^ 2) := by
        rw [div_eq_div_iff (by positivity) c2.ne']; ring
      have f3 : 1 + 2 * (7/5) / (7/5 + 1) * (M ^ 2 - 1) = (7 * M ^ 2 - 1) / 6 := by ring
      rw [f1, f2, f3]
      field_simp
      exact div_self (by linarith)
    rw [div_eq_iff (mul_pos rp' pp').ne', ← e4]
    linear_combination (-(mn2 M DefaultGas.gamma0)) * e3
  have hup0 : 0 < up.u := by
    rw [hup]; exact div_pos hupos rp'
  have hmach : up.u / up.cs = M := by
    have a1 : 0 < up.u / up.cs := div_pos hup0 h2.cs_pos
    nlinarith
  refine ⟨up, h1, h2, h3, by rw [h2.Mach, hmach], ?_, h5⟩
  obtain ⟨s2, k1, -, -, k4, -⟩ := C55_RH up h2 _ h2.Mach (by rw [hmach, h3, hg]; exact hd)
  rw [h5] at k1
  rw [← Except.ok.inj k1] at k4
  rwa [h3, hg, ← g14] at k4

/-- C142, shock: built from an upstream Mach number `M0 ≥ 1` (and no downstream one) with a gradient `dM0dx`, the object has
on its first point the flow behind a normal shock of Mach number `M0`: the state in front of it found by `state_RH`
moves exactly at `M0` and satisfies the Rankine–Hugoniot relations with it; and the matrices of the stability problem can
be computed, with one unknown more than three per point (the displacement of the shock). -/
theorem C142_shock (hn : 2 ≤ n) (L : ℝ) (hL : 0 < L) (M0 d : ℝ) (hM : 1 ≤ M0) (hp : Heap) :
    ∃ (s s' : Obj n) (q : StateV n) (q1 up : State) (B At : Mat ℝ), ShockModel.new n L none (some M0) (some d) hp = .ok s ∧
      s.basestate = some q ∧ q.getitem 0 = .ok q1 ∧ q1.state_RH = .ok up ∧ up.Mach = .ok M0 ∧
      Spec.RankineHugoniot 1.4 (flow up) (flow q1) ∧
      Euler1D.compute_operators s = (.ok (), s') ∧ s'.B = some B ∧ s'.At = some At ∧ B.size = 3 * n + 1 ∧ At.size = 3 * n + 1 := by
  have g1 := one_lt_gamma0
  have hd := dom_of_one_le g1 hM
  have hm : ShockModel.machOf none (some M0) = .ok (Real.sqrt (mn2 M0 DefaultGas.gamma0)) := downstream_Mn_ok g1 hd
  obtain ⟨q, hg, hu, hq, s, hI, hs, hnx, hat, hnew⟩ := shock_new_ok hn hL (dM0dx := some d) hm hp
  have u0 : q.u ⟨0, by omega⟩ = u1 (Real.sqrt (mn2 M0 DefaultGas.gamma0)) := by rw [hu, xv_first hn]; simp
  have e1 : q1s hn q = ptOf q ⟨0, by omega⟩ := by
    unfold q1s ptOf State.initDefault
    rw [hg]
  have hm1 : (q1s hn q).u / (q1s hn q).cs = Real.sqrt (mn2 M0 DefaultGas.gamma0) := by
    rw [e1, (cs_of_rtt (hq _).1 hg (hq _).2.2).1]
    show q.u ⟨0, by omega⟩ / Real.sqrt (7/5 * ShockModel.rttot - 1/5 * q.u ⟨0, by omega⟩ ^ 2) = _
    rw [u0, u1_cs]
  have hv : (q1s hn q).Valid := by rw [e1]; exact (hq _).1
  obtain ⟨up, a1, a2, a3, a4, a5, -⟩ := upstream_mach hv rfl hM hm1
  obtain ⟨s2, q0p, A, B, -, h4, h5, h6, h7, h8, -⟩ := RH_left_ok hn hL.ne hI hs (fun i => (hq i).1.rho.ne') hv
    (by rw [hm1]; exact mn2_dom g1 hd) hnx hat
  exact ⟨_, s2, q, _, up, B, A, hnew, hs, getitem_zero hn q, a1, a4, a5, h4, h5, h6, h7, h8⟩

/-- with the downstream Mach number given, the matrices can be computed whenever `M1² > 1/7`, the limit of the shock relations -/
theorem C142_given (hn : 2 ≤ n) (L : ℝ) (hL : 0 < L) (M1 d : ℝ) (hM : 1/7 < M1 ^ 2) (M0 : Option ℝ) (hp : Heap) :
    ∃ (s s' : Obj n) (B At : Mat ℝ), ShockModel.new n L (some M1) M0 (some d) hp = .ok s ∧
      Euler1D.compute_operators s = (.ok (), s') ∧ s'.B = some B ∧ s'.At = some At ∧ B.size = 3 * n + 1 ∧ At.size = 3 * n + 1 := by
  have g1 := one_lt_gamma0
  obtain ⟨q, hg, hu, hq, s, hI, hs, hnx, hat, hnew⟩ := shock_new_ok hn hL (M1 := some M1) (M0 := M0) (dM0dx := some d) rfl hp
  have u0 : q.u ⟨0, by omega⟩ = u1 M1 := by rw [hu, xv_first hn]; simp
  have e1 : q1s hn q = ptOf q ⟨0, by omega⟩ := by
    unfold q1s ptOf State.initDefault
    rw [hg]
  have hm1 : (q1s hn q).u / (q1s hn q).cs = M1 := by
    rw [e1, (cs_of_rtt (hq _).1 hg (hq _).2.2).1]
    show q.u ⟨0, by omega⟩ / Real.sqrt (7/5 * ShockModel.rttot - 1/5 * q.u ⟨0, by omega⟩ ^ 2) = _
    rw [u0, u1_cs]
  have hv : (q1s hn q).Valid := by rw [e1]; exact (hq _).1
  obtain ⟨s2, q0p, A, B, -, h4, h5, h6, h7, h8, -⟩ := RH_left_ok hn hL.ne hI hs (fun i => (hq i).1.rho.ne') hv
    (by rw [hm1]; unfold dom; show (DefaultGas.gamma0 - 1) / (2 * DefaultGas.gamma0) < _; rw [gamma0_eq]; norm_num; linarith) hnx hat
  exact ⟨_, s2, B, A, hnew, h4, h5, h6, h7, h8⟩

/-- C142: without any Mach number the constructor raises -/
theorem C142_none (n : ℕ) (L : ℝ) (dM0dx : Option ℝ) (hp : Heap) :
    ShockModel.new n L none none dM0dx hp = .error .assertionError := rfl

/-- C142, the relations printed at the top of the script: `4 γ/(γ+1) M` and `4/(γ+1) Rho_ratio²/M³` are the derivatives of
`Ps_ratio` and `Rho_ratio`, for every `M ≠ 0` and every gas. -/
theorem C142_linear (g M : ℝ) (hg : 1 < g) (hM : M ≠ 0) :
    ∃ ps rho : ℝ → ℝ, (∀ x, ShockWave.Ps_ratio x g = .ok (ps x)) ∧ (∀ x, ShockWave.Rho_ratio x g = .ok (rho x)) ∧
      HasDerivAt ps (4 * g / (g + 1) * M) M ∧ HasDerivAt rho (4 / (g + 1) * rho M ^ 2 / M ^ 3) M := by
  refine ⟨fun x => psr x g, fun x => rhr x g, fun x => Ps_ratio_ok hg, fun x => Rho_ratio_ok hg, ?_, ?_⟩
  · have h := (((hasDerivAt_pow 2 M).sub_const 1).const_mul (2 * g / (g + 1))).const_add 1
    refine h.congr_deriv ?_
    push_cast
    ring
  · have hden := (rho_den_pos (M := M) hg).ne'
    have h := ((hasDerivAt_pow 2 M).const_mul (g + 1)).div (((hasDerivAt_pow 2 M).const_mul (g - 1)).const_add 2) hden
    refine h.congr_deriv ?_
    have : g + 1 ≠ 0 := by linarith
    unfold rhr
    push_cast
    field_simp
    ring

theorem setBC_RH_none (i : ℕ) (s s' : Obj n) : setBC_RH i (some i) [("dM0dx", none)] s ≠ (.ok (), s') := by
  intro h
  unfold setBC_RH at h
  obtain ⟨D, s1, -, h⟩ := bind_inv h
  obtain ⟨_, s2, -, h⟩ := bind_inv h
  obtain ⟨_, s3, e3, h⟩ := bind_inv h
  obtain ⟨_, s4, e4, h⟩ := bind_inv h
  obtain ⟨q, s5, e5, h⟩ := bind_inv h
  cases q with
  | none => cases h
  | some q =>
    simp only [] at h
    obtain ⟨_, s6, e6, h⟩ := bind_inv h
    obtain ⟨_, s7, e7, h⟩ := bind_inv h
    obtain ⟨_, s8, e8, h⟩ := bind_inv h
    obtain ⟨_, s9, e9, h⟩ := bind_inv h
    obtain ⟨_, s10, e10, h⟩ := bind_inv h
    obtain ⟨_, s11, e11, h⟩ := bind_inv h
    obtain ⟨_, s12, e12, h⟩ := bind_inv h
    obtain ⟨_, s13, e13, h⟩ := bind_inv h
    have hk : kwValue [("dM0dx", none)] "dM0dx" = none := by simp [kwValue]
    rw [hk] at h
    cases h

theorem compute_left_none (hn : 2 ≤ n) {L : ℝ} (hL : L ≠ 0) {s s' : Obj n} {q : StateV n} (h : EInv 0 L s) (hq : s.basestate = some q)
    (hr : ∀ i, q.rho i ≠ 0) {r : ℕ} (hrn : r < s.heap.next) (hrd : s.heap.at' r = ⟨some "RH", [("dM0dx", none)]⟩) :
    Euler1D.compute_operators (withDictSym s r) ≠ (.ok (), s') := by
  intro h0
  have hI : EInv 0 L (withDictSym s r) := ⟨h.diff, h.nvar⟩
  obtain ⟨d, h1, h2⟩ := compute_pre hn hL.symm hI hq hr
  have hl : (withDictSym s r).heap.at' r = ⟨some "RH", [("dM0dx", none)]⟩ := by
    show (if r = s.heap.next then _ else s.heap.at' r) = _
    rw [if_neg (by omega), hrd]
  rw [h1, compute_BC_two (s := pre (withDictSym s r) d (Dm n 0 L 1) q) (l := r) (r := s.heap.next) (t := "RH") rfl
    (by show getType (withDictSym s r).heap r = _; simp [getType, hl]) (by decide)] at h0
  obtain ⟨_, s1, e1, -⟩ := bind_inv h0
  rw [applyBC_eq (s := pre (withDictSym s r) d (Dm n 0 L 1) q) (i := 0) hl] at e1
  unfold callBC at e1
  simp only [] at e1
  rw [if_neg (by simp)] at e1
  exact setBC_RH_none _ _ _ e1

/-- C142 fails for the default value of `dM0dx`: without it the object is built, but its matrices can never be computed
(`compute_operators` raises), for every number of points, length and Mach number. -/
theorem C142_default_false (hn : 2 ≤ n) (L : ℝ) (hL : 0 < L) (M1 M0 : Option ℝ) (m : ℝ) (hm : Downstream M1 M0 m) (hp : Heap) :
    ∃ s : Obj n, ShockModel.new n L M1 M0 none hp = .ok s ∧ ∃ e, (Euler1D.compute_operators s).1 = .error e := by
  obtain ⟨q, hg, hu, hq, s, hI, hs, hnx, hat, hnew⟩ := shock_new_ok hn hL (dM0dx := none) (machOf_ok hm) hp
  refine ⟨_, hnew, ?_⟩
  rcases e : Euler1D.compute_operators (withDictSym s hp.next) with ⟨_ | u, s2⟩
  · exact ⟨_, rfl⟩
  · exact absurd e (compute_left_none hn hL.ne' hI hs (fun i => (hq i).1.rho.ne') hnx hat)

/-- the script's own case: 201 points, `M0 = 2.495`, `length = 2.28e-3`, `dM0dx = 850` -/
example : (2:ℕ) ≤ 201 ∧ (0:ℝ) < 2.28e-3 ∧ (1:ℝ) ≤ 2.495 ∧ ∃ m, 0 < m ∧ Downstream none (some 2.495) m := by
  refine ⟨by norm_num, by norm_num, by norm_num, _, Real.sqrt_pos.2 (mn2_pos (M := 2.495) (γ := 1.4) (by norm_num) (dom_of_one_le (by norm_num) (by norm_num))),
    .inr ⟨rfl, _, rfl, downstream_Mn_ok (by norm_num) (dom_of_one_le (by norm_num) (by norm_num))⟩⟩

example : (1:ℝ)/7 < 0.5 ^ 2 ∧ Downstream (some 0.5) none 0.5 := ⟨by norm_num, .inl rfl⟩

end Aerokit.Props
